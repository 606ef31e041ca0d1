import Verif.Props.EngineBonds
/-!
# C160: the results of an instrument do not depend on its company

Two engines that hold the same instrument with the same pricer, in markets that agree on what the pricer sees, give it the same results, whatever else they hold and whatever
else their markets contain. By tenor this holds where both look at the tenor (or neither does).
-/
set_option autoImplicit false
namespace Verif.Props
open Verif Verif.QL Verif.Civil

/-! ## Specification -/

/-- What a market says of the price of `u`: value, date, and the dividend it refers to. -/
def quoteOf (m : Mkt) (u : String) : Option (ℝ × DT × Option (Option (Dividend ℝ × Bool))) :=
  (m.price u).map fun p => (p.2.value, p.2.at_, p.2.div.map fun k => m.w.divs[k]?)

/-- The dividend filed under `u` -/
def dividendOf (m : Mkt) (u : String) : Option (Dividend ℝ × Bool) := (m.dividend u).bind fun k => m.w.divs[k]?

/-- Two markets agree on the date, the curves `cs` and all that is filed under the names `us`. -/
structure Alike (us cs : List String) (m m' : Mkt) : Prop where
  date : m.w.date = m'.w.date
  curves : ∀ n ∈ cs, m.curves n = m'.curves n
  quotes : ∀ u ∈ us, quoteOf m u = quoteOf m' u
  divs : ∀ u ∈ us, dividendOf m u = dividendOf m' u
  vols : ∀ u ∈ us, m.vols u = m'.vols u

/-- Prices refer to the dividend filed under the same name; the surfaces of `us` are built with curves among `cs`. -/
structure Tied (us cs : List String) (m : Mkt) : Prop where
  div : ∀ u ∈ us, ∀ j p, m.price u = some (j, p) → p.div = m.dividend u
  carry : ∀ u ∈ us, ∀ n, m.volCurves u = some n → n.1 ∈ cs ∧ n.2 ∈ cs

/-- The pricer sees nothing but what `Alike` is about. -/
def SeesOnly (us cs : List String) (p : EPricer) (i : Instr) : Prop :=
  ∀ m m', Alike us cs m m' → p.npv i m = p.npv i m' ∧ p.result i m = p.result i m' ∧ ∀ x, p.exposure i m x = p.exposure i m' x

/-! ## The pricers of the factory -/

/-- The names of prices and surfaces, and of curves, in a plan -/
def planNames : Plan → List String × List String
  | .bond d w _ => ([], d :: w.toList)
  | .futures u c b => ([u], [c, b])
  | .option u v d c b _ => ([u, v], [d, c, b])
  | .ktbf d c => ([], [d, c])
  | .fxFutures _ a b => ([], [a, b])
  | .swap a b w _ _ => ([], a :: b :: w.toList)
  | .stock u => ([u], [])
  | .cash => ([], [])

theorem carry_alike (us cs : List String) (m m' : Mkt) (h : Alike us cs m m') (u c b : String) (hu : u ∈ us) (hc : c ∈ cs) (hb : b ∈ cs) : m.carry u c b = m'.carry u c b := by
  have hq := h.quotes u hu
  unfold quoteOf at hq
  unfold Mkt.carry
  rw [h.curves c hc, h.curves b hb]
  cases h1 : m.price u with
  | none =>
    rw [h1] at hq
    cases h2 : m'.price u with
    | none => rfl
    | some q => rw [h2] at hq; cases hq
  | some p =>
    rw [h1] at hq
    cases h2 : m'.price u with
    | none => rw [h2] at hq; cases hq
    | some q =>
      rw [h2] at hq
      simp only [Option.map_some, Option.some.injEq, Prod.mk.injEq] at hq
      obtain ⟨q1, q2, q3⟩ := hq
      have hd : m.divOf p.2 = m'.divOf q.2 := by
        unfold Mkt.divOf
        cases h3 : p.2.div with
        | none =>
          rw [h3] at q3
          cases h4 : q.2.div with
          | none => rfl
          | some k => rw [h4] at q3; cases q3
        | some k =>
          rw [h3] at q3
          cases h4 : q.2.div with
          | none => rw [h4] at q3; cases q3
          | some k' =>
            rw [h4] at q3
            simp only [Option.map_some, Option.some.injEq] at q3
            dsimp only
            rw [q3]
      have ho : ∀ x : Nat × Price ℝ, orErr (some x) = .ok x := fun _ => rfl
      simp only [ho, Res.bind_ok, h.date, q1, hd]

/-- A pricer of the factory sees only what its plan names. -/
theorem plan_sees (md : Mode) (f : Fixed) (t : Terms) (pl : Plan) (us cs : List String) (h1 : ∀ u ∈ (planNames pl).1, u ∈ us) (h2 : ∀ n ∈ (planNames pl).2, n ∈ cs) (i : Instr) :
    SeesOnly us cs (pl.pricer md f t) i := by
  intro m m' h
  have fwd : ∀ w : Option String, (∀ n ∈ w.toList, n ∈ cs) → ∀ p, m.fixings f w p = m'.fixings f w p := by
    intro w hw p
    unfold Mkt.fixings
    cases w with
    | none => rfl
    | some n =>
      have := h.curves n (hw n (by simp))
      simp only [Option.bind_some, this, h.date]
  have npv : pl.npv md f t m = pl.npv md f t m' := by
    cases pl with
    | bond d w p =>
      cases t <;> try rfl
      unfold Plan.npv Mkt.bondPricer
      dsimp only
      rw [h.curves d (h2 d (by simp [planNames])), fwd w (fun n hn => h2 n (by simp only [planNames]; exact List.mem_cons_of_mem _ hn)) p, h.date]
    | futures u c b =>
      cases t <;> try rfl
      unfold Plan.npv
      dsimp only
      rw [carry_alike us cs m m' h u c b (h1 u (by simp [planNames])) (h2 c (by simp [planNames])) (h2 b (by simp [planNames]))]
    | option u v d c b q =>
      cases t <;> try rfl
      unfold Plan.npv Mkt.optionPricer
      dsimp only
      rw [carry_alike us cs m m' h u c b (h1 u (by simp [planNames])) (h2 c (by simp [planNames])) (h2 b (by simp [planNames])), h.vols v (h1 v (by simp [planNames])),
        h.curves d (h2 d (by simp [planNames]))]
    | ktbf d c =>
      cases t <;> try rfl
      unfold Plan.npv
      dsimp only
      rw [h.curves d (h2 d (by simp [planNames])), h.curves c (h2 c (by simp [planNames])), h.date]
    | fxFutures x a b =>
      cases t <;> try rfl
      unfold Plan.npv Mkt.fxPricer
      dsimp only
      rw [h.curves a (h2 a (by simp [planNames])), h.curves b (h2 b (by simp [planNames])), h.date]
    | swap a b w p x =>
      cases t <;> try rfl
      unfold Plan.npv Mkt.swapPricer
      dsimp only
      rw [h.curves a (h2 a (by simp [planNames])), h.curves b (h2 b (by simp [planNames])),
        fwd w (fun n hn => h2 n (by simp only [planNames]; exact List.mem_cons_of_mem _ (List.mem_cons_of_mem _ hn))) p, h.date]
    | stock u =>
      have hq := h.quotes u (h1 u (by simp [planNames]))
      unfold quoteOf at hq
      unfold Plan.npv
      dsimp only
      cases e1 : m.price u <;> cases e2 : m'.price u <;> rw [e1, e2] at hq
      · cases hq
      · cases hq
      · simp only [Option.map_some, Option.some.injEq, Prod.mk.injEq] at hq
        show (Except.ok _ : Res ℝ) = .ok _
        rw [hq.1]
    | cash => rfl
  refine ⟨npv, ?_, fun x => ?_⟩
  · show pl.result md f t m = pl.result md f t m'
    cases pl with
    | bond d w p =>
      cases t <;> try rfl
      unfold Plan.result Mkt.bondPricer
      dsimp only
      rw [h.curves d (h2 d (by simp [planNames])), fwd w (fun n hn => h2 n (by simp only [planNames]; exact List.mem_cons_of_mem _ hn)) p, h.date]
    | swap a b w p x =>
      cases t <;> try rfl
      unfold Plan.result Mkt.swapPricer
      dsimp only
      rw [h.curves a (h2 a (by simp [planNames])), h.curves b (h2 b (by simp [planNames])),
        fwd w (fun n hn => h2 n (by simp only [planNames]; exact List.mem_cons_of_mem _ (List.mem_cons_of_mem _ hn))) p, h.date]
    | _ =>
      unfold Plan.result
      dsimp only
      rw [npv]
  · show pl.exposure md f t i m x = pl.exposure md f t i m' x
    cases pl with
    | futures u c b =>
      cases t <;> try rfl
      unfold Plan.exposure
      dsimp only
      rw [carry_alike us cs m m' h u c b (h1 u (by simp [planNames])) (h2 c (by simp [planNames])) (h2 b (by simp [planNames]))]
    | fxFutures x a b =>
      cases t <;> try rfl
      unfold Plan.exposure Mkt.fxPricer
      dsimp only
      rw [h.curves a (h2 a (by simp [planNames])), h.curves b (h2 b (by simp [planNames])), h.date]
    | swap a b w p x =>
      cases t <;> try rfl
      unfold Plan.exposure Mkt.swapPricer
      dsimp only
      rw [h.curves a (h2 a (by simp [planNames])), h.curves b (h2 b (by simp [planNames])),
        fwd w (fun n hn => h2 n (by simp only [planNames]; exact List.mem_cons_of_mem _ (List.mem_cons_of_mem _ hn))) p, h.date]
    | _ => rfl

/-! ## Bumped markets -/

theorem alike_curve (us cs : List String) (M M' m m' : Mkt) (h : Alike us cs M M') (hg : GoodCurves M') (n : String) (win : ℝ → Prop) (b : ℝ)
    (h1 : CurveShifted n win b M m) (h2 : CurveShifted n win b M' m') : Alike us cs m m' := by
  by_cases hn : n ∈ cs
  · obtain ⟨c, c1, a1, a2, a3, a4, a5, rfl⟩ := h1
    have h3 : CurveShifted n win b M' { M' with curves := M'.curves.put n c1 } := ⟨c, c1, by rw [← h.curves n hn]; exact a1, a2, a3, a4, a5, rfl⟩
    obtain rfl := curveShifted_unique n win b M' _ _ hg h2 h3
    refine ⟨h.date, fun k hk => ?_, h.quotes, h.divs, h.vols⟩
    show (M.curves.put n c1) k = (M'.curves.put n c1) k
    by_cases e : k = n
    · subst e; rw [put_self, put_self]
    · rw [put_other _ _ _ _ e, put_other _ _ _ _ e]; exact h.curves k hk
  · obtain ⟨c, c1, -, -, -, -, -, rfl⟩ := h1
    obtain ⟨d, d1, -, -, -, -, -, rfl⟩ := h2
    refine ⟨h.date, fun k hk => ?_, h.quotes, h.divs, h.vols⟩
    have e : k ≠ n := fun e => hn (e ▸ hk)
    show (M.curves.put n c1) k = (M'.curves.put n d1) k
    rw [put_other _ _ _ _ e, put_other _ _ _ _ e]
    exact h.curves k hk

theorem alike_price (us cs : List String) (hus : ∀ u ∈ us, ∀ w ∈ us, u = w) (M M' m m' : Mkt) (h : Alike us cs M M') (u : String) (hu : u ∈ us) (k : ℝ)
    (h1 : PriceScaled u k M m) (h2 : PriceScaled u k M' m') : Alike us cs m m' := by
  obtain ⟨j, p, a1, a2, rfl⟩ := h1
  obtain ⟨j', p', b1, b2, rfl⟩ := h2
  refine ⟨h.date, h.curves, fun w hw => ?_, h.divs, h.vols⟩
  obtain rfl := hus u hu w hw
  have hq := h.quotes u hu
  unfold quoteOf at hq
  rw [(price_iff M u j p).2 ⟨a1, a2⟩, (price_iff M' u j' p').2 ⟨b1, b2⟩] at hq
  unfold quoteOf
  have l1 : j < M.w.prices.length := (List.getElem?_eq_some_iff.1 a2).1
  have l2 : j' < M'.w.prices.length := (List.getElem?_eq_some_iff.1 b2).1
  have g1 : Mkt.price { M with w := { M.w with prices := M.w.prices.set j { p with value := p.value * k } } } u = some (j, { p with value := p.value * k }) :=
    (price_iff _ _ _ _).2 ⟨a1, by simp [l1]⟩
  have g2 : Mkt.price { M' with w := { M'.w with prices := M'.w.prices.set j' { p' with value := p'.value * k } } } u = some (j', { p' with value := p'.value * k }) :=
    (price_iff _ _ _ _).2 ⟨b1, by simp [l2]⟩
  rw [g1, g2]
  simp only [Option.map_some, Option.some.injEq, Prod.mk.injEq] at hq ⊢
  exact ⟨by rw [hq.1], hq.2.1, hq.2.2⟩

theorem env_alike (us cs : List String) (M M' : Mkt) (h : Alike us cs M M') (ht : Tied us cs M) (u : String) (hu : u ∈ us) (hv : M.volCurves u = M'.volCurves u) : M.env u = M'.env u := by
  have key : ∀ m : Mkt, m.env u = match m.volCurves u with | none => .error .err | some n => m.carry u n.1 n.2 := by
    intro m
    unfold Mkt.env Mkt.carry
    cases e1 : m.price u with
    | none => cases e2 : m.volCurves u <;> rfl
    | some p =>
      cases e2 : m.volCurves u with
      | none => rfl
      | some n =>
        dsimp only
        cases e3 : m.curves n.1 with
        | none => rfl
        | some c => cases e4 : m.curves n.2 <;> rfl
  rw [key, key, ← hv]
  cases e : M.volCurves u with
  | none => rfl
  | some n =>
    obtain ⟨q1, q2⟩ := ht.carry u hu n e
    exact carry_alike us cs M M' h u n.1 n.2 hu q1 q2

theorem alike_vol (us cs : List String) (hus : ∀ u ∈ us, ∀ w ∈ us, u = w) (M M' m m' : Mkt) (h : Alike us cs M M') (ht : Tied us cs M) (hg : GoodVols M') (u : String) (hu : u ∈ us)
    (hv : M.volCurves u = M'.volCurves u) (win : ℝ → ℝ → Prop) (b : ℝ) (h1 : VolShifted u win b M m) (h2 : VolShifted u win b M' m') : Alike us cs m m' := by
  obtain ⟨s, s1, env, a1, a2, a3, a4, a5, a6, rfl⟩ := h1
  have h3 : VolShifted u win b M' { M' with vols := M'.vols.put u (.surface s1) } :=
    ⟨s, s1, env, by rw [← h.vols u hu]; exact a1, by rw [← env_alike us cs M M' h ht u hu hv]; exact a2, a3, a4, a5, a6, rfl⟩
  obtain rfl := volShifted_unique u win b M' _ _ hg h2 h3
  refine ⟨h.date, h.curves, h.quotes, h.divs, fun w hw => ?_⟩
  obtain rfl := hus u hu w hw
  show (M.vols.put u _) u = (M'.vols.put u _) u
  rw [put_self, put_self]

theorem alike_div (us cs : List String) (hus : ∀ u ∈ us, ∀ w ∈ us, u = w) (M M' m m' : Mkt) (h : Alike us cs M M') (ht : Tied us cs M) (ht' : Tied us cs M') (u : String) (hu : u ∈ us)
    (win : DT → Prop) (b : ℝ) (h1 : DivShifted u win b M m) (h2 : DivShifted u win b M' m') : Alike us cs m m' := by
  obtain ⟨k, v, v1, f, a1, a2, a3, a4, a5, a6, a7, rfl⟩ := h1
  have h2' := h2
  obtain ⟨k', v', v2, f', b1, b2, -⟩ := h2'
  have hd := h.divs u hu
  unfold dividendOf at hd
  rw [a1, b1] at hd
  simp only [Option.bind_some] at hd
  rw [a2, b2] at hd
  obtain ⟨rfl, rfl⟩ := Prod.mk.inj (Option.some.inj hd)
  have h3 : DivShifted u win b M' { M' with w := { M'.w with divs := M'.w.divs.set k' (v1, f) } } :=
    ⟨k', v, v1, f, b1, b2, a3, a4, a5, a6, by rw [← h.date]; exact a7, rfl⟩
  obtain rfl := divShifted_unique u win b M' _ _ h2 h3
  have l1 : k < M.w.divs.length := (List.getElem?_eq_some_iff.1 a2).1
  have l2 : k' < M'.w.divs.length := (List.getElem?_eq_some_iff.1 b2).1
  refine ⟨h.date, h.curves, fun w hw => ?_, fun w hw => ?_, h.vols⟩
  · obtain rfl := hus u hu w hw
    have hq := h.quotes u hu
    unfold quoteOf at hq ⊢
    show (M.price u).map _ = (M'.price u).map _
    cases e1 : M.price u <;> cases e2 : M'.price u <;> rw [e1, e2] at hq
    · rfl
    · cases hq
    · cases hq
    · rename_i p q
      simp only [Option.map_some, Option.some.injEq, Prod.mk.injEq] at hq ⊢
      refine ⟨hq.1, hq.2.1, ?_⟩
      rw [ht.div u hu p.1 p.2 e1, ht'.div u hu q.1 q.2 e2, a1, b1]
      simp [l1, l2]
  · obtain rfl := hus u hu w hw
    unfold dividendOf
    show (M.dividend u).bind _ = (M'.dividend u).bind _
    rw [a1, b1]
    simp [l1, l2]

theorem mapRes_get {α β : Type} (f : α → Res β) (l : List α) (r : List β) (h : mapRes f l = .ok r) (k : Nat) : r[k]? = (l[k]?).bind fun x => (f x).toOption := by
  obtain ⟨h1, h2⟩ := (mapRes_iff _ _ _).1 h
  by_cases hk : k < l.length
  · have e1 : l[k]? = some l[k] := List.getElem?_eq_getElem hk
    have e2 : r[k]? = some (r[k]'(by omega)) := List.getElem?_eq_getElem (by omega)
    rw [e1, e2, Option.bind_some, h2 k _ _ e1 e2]
    rfl
  · rw [List.getElem?_eq_none (by omega), List.getElem?_eq_none (by omega)]
    rfl

theorem alike_date (us cs : List String) (M M' : Mkt) (h : Alike us cs M M') (d : DT) (w w' : World ℝ) (h1 : M.w.setDate d = .ok w) (h2 : M'.w.setDate d = .ok w') :
    Alike us cs { M with w := w } { M' with w := w' } := by
  unfold World.setDate at h1 h2
  obtain ⟨ps, hps, h1⟩ := (bind_ok_iff _ _ _).1 h1
  obtain ⟨ds, hds, h1⟩ := (bind_ok_iff _ _ _).1 h1
  obtain rfl := Except.ok.inj h1
  obtain ⟨ps', hps', h2⟩ := (bind_ok_iff _ _ _).1 h2
  obtain ⟨ds', hds', h2⟩ := (bind_ok_iff _ _ _).1 h2
  obtain rfl := Except.ok.inj h2
  have gp := mapRes_get _ _ _ hps
  have gp' := mapRes_get _ _ _ hps'
  have gd := mapRes_get _ _ _ hds
  have gd' := mapRes_get _ _ _ hds'
  refine ⟨rfl, h.curves, fun u hu => ?_, fun u hu => ?_, h.vols⟩
  · have hq := h.quotes u hu
    unfold quoteOf Mkt.price at hq ⊢
    dsimp only
    have one : ∀ (m : Mkt) (ps : List (Price ℝ)) (ds : List (Dividend ℝ × Bool)) (j : Nat) (p : Price ℝ),
        m.w.prices[j]? = some p → ps[j]? = (m.w.prices[j]?).bind (fun x => (Price.update x (m.w.divs.map Prod.fst) d).toOption) → (∃ y, ps[j]? = some y) →
        (∀ k : Nat, ds[k]? = (m.w.divs[k]?).bind fun (v : Dividend ℝ × Bool) => (if v.2 then (do let x ← Dividend.update v.1 d; .ok (x, true)) else .ok v : Res (Dividend ℝ × Bool)).toOption) →
        (ps[j]?).map (fun p => (p.value, p.at_, p.div.map fun k => ds[k]?)) =
          match p.div.map fun k => m.w.divs[k]? with
          | none => some (p.value, p.at_, none)
          | some v => match v with
            | none => none
            | some v => (if p.at_.instant < d.instant then Except.ok (deduct p.at_ d p.value v.1.pairs) else restore p.at_ d p.value v.1.pairs : Res ℝ).toOption.map fun x =>
                (x, d, some ((if v.2 then (do let x ← Dividend.update v.1 d; .ok (x, true)) else .ok v : Res (Dividend ℝ × Bool)).toOption)) := by
      intro m ps ds j p hp hg ⟨y, hy⟩ hds
      rw [hg, hp, Option.bind_some]
      unfold Price.update
      cases e : p.div with
      | none =>
        show (some p).map _ = _
        simp [e]
      | some k =>
        simp only [Option.map_some, List.getElem?_map]
        cases e2 : m.w.divs[k]? with
        | none => rfl
        | some v =>
          simp only [Option.map_some]
          have hk := hds k
          rw [e2, Option.bind_some] at hk
          generalize (if v.2 then (do let x ← Dividend.update v.1 d; .ok (x, true)) else .ok v : Res (Dividend ℝ × Bool)) = z at hk ⊢
          by_cases hlt : p.at_.instant < d.instant
          · simp only [if_pos hlt]
            show some _ = some _
            simp only [e, Option.map_some, hk]
          · simp only [if_neg hlt]
            cases e3 : restore p.at_ d p.value v.1.pairs with
            | error er => rfl
            | ok x =>
              show some _ = some _
              simp only [e, Option.map_some, hk]
    cases e1 : M.equity u with
    | none =>
      rw [e1] at hq
      cases e2 : M'.equity u with
      | none => rfl
      | some j' =>
        rw [e2] at hq
        dsimp only at hq ⊢
        cases e3 : M'.w.prices[j']? with
        | none => rw [gp', e3]; rfl
        | some p => rw [e3] at hq; cases hq
    | some j =>
      rw [e1] at hq
      cases e2 : M'.equity u with
      | none =>
        rw [e2] at hq
        dsimp only at hq ⊢
        cases e3 : M.w.prices[j]? with
        | none => rw [gp, e3]; rfl
        | some p => rw [e3] at hq; cases hq
      | some j' =>
        rw [e2] at hq
        dsimp only at hq ⊢
        cases e3 : M.w.prices[j]? with
        | none =>
          rw [e3] at hq
          cases e4 : M'.w.prices[j']? with
          | none => rw [gp, gp', e3, e4]; rfl
          | some p => rw [e4] at hq; cases hq
        | some p =>
          rw [e3] at hq
          cases e4 : M'.w.prices[j']? with
          | none => rw [e4] at hq; cases hq
          | some p' =>
            rw [e4] at hq
            simp only [Option.map_some, Option.some.injEq, Prod.mk.injEq] at hq
            have l1 : ps.length = M.w.prices.length := ((mapRes_iff _ _ _).1 hps).1
            have l2 : ps'.length = M'.w.prices.length := ((mapRes_iff _ _ _).1 hps').1
            have k1 := (List.getElem?_eq_some_iff.1 e3).1
            have k2 := (List.getElem?_eq_some_iff.1 e4).1
            have o1 := one M ps ds j p e3 (gp j) ⟨_, List.getElem?_eq_getElem (by omega)⟩ gd
            have o2 := one M' ps' ds' j' p' e4 (gp' j') ⟨_, List.getElem?_eq_getElem (by omega)⟩ gd'
            rw [← hq.1, ← hq.2.1, ← hq.2.2, ← o1] at o2
            simp only [Option.map_map, Function.comp_def]
            exact o2.symm
  · have hd := h.divs u hu
    unfold dividendOf at hd ⊢
    dsimp only
    cases e1 : M.dividend u with
    | none =>
      rw [e1] at hd
      cases e2 : M'.dividend u with
      | none => rfl
      | some k' =>
        rw [e2] at hd
        simp only [Option.bind_some, Option.bind_none] at hd ⊢
        rw [gd', ← hd]
        rfl
    | some k =>
      rw [e1] at hd
      cases e2 : M'.dividend u with
      | none =>
        rw [e2] at hd
        simp only [Option.bind_some, Option.bind_none] at hd ⊢
        rw [gd, hd]
        rfl
      | some k' =>
        rw [e2] at hd
        simp only [Option.bind_some] at hd ⊢
        rw [gd, gd', hd]

/-- A bump of a surface in a market that differs in other surfaces -/
theorem vol_transplant (us cs : List String) (hus : ∀ u ∈ us, ∀ w ∈ us, u = w) (M Mu m : Mkt) (hMu : Mu = { M with vols := Mu.vols }) (u : String) (hu : u ∈ us) (hv : Mu.vols u = M.vols u)
    (win : ℝ → ℝ → Prop) (b : ℝ) (h : VolShifted u win b Mu m) : ∃ m0, VolShifted u win b M m0 ∧ Alike us cs m m0 := by
  obtain ⟨s, s1, env, a1, a2, a3, a4, a5, a6, rfl⟩ := h
  have he : Mu.env u = M.env u := by rw [hMu]; rfl
  refine ⟨_, ⟨s, s1, env, by rw [← hv]; exact a1, by rw [← he]; exact a2, a3, a4, a5, a6, rfl⟩, ?_⟩
  rw [hMu]
  refine ⟨rfl, fun _ _ => rfl, fun _ _ => rfl, fun _ _ => rfl, fun w hw => ?_⟩
  obtain rfl := hus u hu w hw
  show (Mu.vols.put u _) u = (M.vols.put u _) u
  rw [put_self, put_self]

theorem alike_symm (us cs : List String) (m m' : Mkt) (h : Alike us cs m m') : Alike us cs m' m :=
  ⟨h.date.symm, fun n hn => (h.curves n hn).symm, fun n hn => (h.quotes n hn).symm, fun n hn => (h.divs n hn).symm, fun n hn => (h.vols n hn).symm⟩

theorem alike_trans (us cs : List String) (a b c : Mkt) (h : Alike us cs a b) (h' : Alike us cs b c) : Alike us cs a c :=
  ⟨h.date.trans h'.date, fun n hn => (h.curves n hn).trans (h'.curves n hn), fun n hn => (h.quotes n hn).trans (h'.quotes n hn),
    fun n hn => (h.divs n hn).trans (h'.divs n hn), fun n hn => (h.vols n hn).trans (h'.vols n hn)⟩

/-! ## The theorem -/

/-- **C160**. Two engines with the same settings, that hold the same instrument `i` with the same pricer, in sound markets that agree on what the pricer sees. Their other
instruments and the rest of their markets may be anything. Npv, value, cash flows, exposure, delta, gamma, vega, rho and dividend delta of `i` are the same; theta too, if both
move `i` to the same date; rho and dividend delta by tenor for each tenor both look at or neither does; vega by tenor, and by tenor and moneyness, if both look at the same tenors. -/
theorem C160_company (g g' : EngCfg) (hg : OwnCodes g) (hg' : OwnCodes g') (hmd : g'.md = g.md) (hgp : g'.p = g.p) (hcf : g'.conf = g.conf) (names names' : List String) (hns : names.Nodup)
    (hns' : names'.Nodup) (ds ds' : List DT) (M M' : Mkt) (hM : SoundMkt g ds M) (hM' : SoundMkt g' ds' M') (i : Instr) (hi : i ∈ g.insts) (hi' : i ∈ g'.insts) (P : EPricer)
    (hP : g.pricers i.code = some P) (hP' : g'.pricers i.code = some P) (us cs : List String) (hus : ∀ u ∈ us, ∀ w ∈ us, u = w) (hsub : i.typeName ≠ "Stock" → ∀ u ∈ i.unds, u ∈ us)
    (hnm : ∀ u ∈ i.unds, u ∈ names ↔ u ∈ names') (hsee : SeesOnly us cs P i) (hA : Alike us cs M M') (hT : Tied us cs M) (hT' : Tied us cs M')
    (hvc : ∀ u ∈ us, M.volCurves u = M'.volCurves u) (e e' : Eng)
    (h : calculate g names { mkt := M, action := g.insts, results := freshResults g.insts fun _ => none } = .ok e)
    (h' : calculate g' names' { mkt := M', action := g'.insts, results := freshResults g'.insts fun _ => none } = .ok e') :
    ∃ y y', e.results i.code = some y ∧ e'.results i.code = some y' ∧
      (y.npv = y'.npv ∧ y.value = y'.value ∧ y.flows = y'.flows ∧ y.exposure = y'.exposure ∧ y.delta = y'.delta ∧ y.gamma = y'.gamma ∧ y.vega = y'.vega ∧ y.rho = y'.rho ∧
        y.divDelta = y'.divDelta) ∧
      ((∀ b d d', M.w.date.addNs (g.conf.thetaDay * dayNs) = .ok b → ThetaDate g b i d → ThetaDate g' b i d' → d = d') → y.theta = y'.theta) ∧
      (∀ dr, calcDates g.md M.w.date g.conf.rhoTenors = .ok dr → ∀ n (k : Nat),
        (TenorReached (fun j => j ∈ g.insts ∧ UsesCurve g.p n j ∧ j.typeName ≠ "Stock" ∧ j.typeName ≠ "Cash") dr k ↔
          TenorReached (fun j => j ∈ g'.insts ∧ UsesCurve g.p n j ∧ j.typeName ≠ "Stock" ∧ j.typeName ≠ "Cash") dr k) →
        ((y.rhoS n).bind fun l => l[k]?) = (y'.rhoS n).bind fun l => l[k]?) ∧
      (∀ dd, calcDates g.md M.w.date g.conf.divTenors = .ok dd → ∀ u (k : Nat),
        (TenorReached (fun j => j ∈ g.insts ∧ u ∈ j.unds ∧ j.typeName ≠ "Stock" ∧ j.typeName ≠ "Cash") dd k ↔
          TenorReached (fun j => j ∈ g'.insts ∧ u ∈ j.unds ∧ j.typeName ≠ "Stock" ∧ j.typeName ≠ "Cash") dd k) →
        ((y.divS u).bind fun l => l[k]?) = (y'.divS u).bind fun l => l[k]?) ∧
      ∀ u, (∀ T T', DoneBy M.w.date (fun j => j ∈ g.insts ∧ OnVol j u) T → DoneBy M.w.date (fun j => j ∈ g'.insts ∧ OnVol j u) T' →
          ∀ k, TenorBeyond (ds.map (timeFrom M.w.date)) T k ↔ TenorBeyond (ds.map (timeFrom M.w.date)) T' k) →
        y.vegaS u = y'.vegaS u ∧ (OnVol i u → y.vegaM u = y'.vegaM u) := by
  obtain ⟨-, hres⟩ := C97_new_engine g hg names hns ds M e hM h
  obtain ⟨-, hres'⟩ := C97_new_engine g' hg' names' hns' ds' M' e' hM' h'
  obtain ⟨y, hy, ci⟩ := hres i hi
  obtain ⟨y', hy', ci'⟩ := hres' i hi'
  have hd : M'.w.date = M.w.date := hA.date.symm
  have hds : ds' = ds := by
    have h1 := hM'.tenors
    rw [hmd, hcf, hd, hM.tenors] at h1
    exact (Except.ok.inj h1).symm
  subst hds
  have npvAt : ∀ m m', Alike us cs m m' → g.npv i m = g'.npv i m' := by
    intro m m' hm
    unfold EngCfg.npv
    rw [hP, hP']
    exact (hsee m m' hm).1
  have fd : ∀ m m' b unit npv a a', Alike us cs m m' → ForwardDiff g m b unit i npv a → ForwardDiff g' m' b unit i npv a' → a = a' := by
    rintro m m' b unit npv a a' hm ⟨v, up, a1, a2, a3, a4⟩ ⟨v', up', b1, b2, b3, b4⟩
    rw [a1] at b1
    obtain rfl := Option.some.inj b1
    rw [npvAt m m' hm, b2] at a2
    obtain rfl := Except.ok.inj a2
    rw [a4, b4]
  -- npv
  have n1 : y.npv = y'.npv ∧ y.value = y'.value ∧ y.flows = y'.flows := by
    cases hf : g.conf.npv with
    | true =>
      obtain ⟨p, v, fl, a1, a2, a3, a4, a5, a6⟩ := ci.npv hf
      obtain ⟨p', v', fl', b1, b2, b3, b4, b5, b6⟩ := ci'.npv (by rw [hcf]; exact hf)
      rw [hP] at a1
      obtain rfl := Option.some.inj a1
      rw [hP'] at b1
      obtain rfl := Option.some.inj b1
      rw [(hsee M M' hA).2.1, b2] at a2
      obtain rfl := Except.ok.inj a2
      rw [a3] at b3
      obtain rfl := Except.ok.inj b3
      exact ⟨by rw [a4, b4], by rw [a5, b5], by rw [a6, b6]⟩
    | false =>
      obtain ⟨a1, a2, a3⟩ := ci.npvOff hf
      obtain ⟨b1, b2, b3⟩ := ci'.npvOff (by rw [hcf]; exact hf)
      exact ⟨by rw [a1, b1], by rw [a2, b2], by rw [a3, b3]⟩
  obtain ⟨n1, n2, n3⟩ := n1
  have n4 : y.exposure = y'.exposure := by
    cases hf : g.conf.exposure with
    | true =>
      obtain ⟨p, v, f, a1, a2, a3, a4⟩ := ci.exposure hf
      obtain ⟨p', v', f', b1, b2, b3, b4⟩ := ci'.exposure (by rw [hcf]; exact hf)
      rw [hP] at a1
      obtain rfl := Option.some.inj a1
      rw [hP'] at b1
      obtain rfl := Option.some.inj b1
      rw [n1, b2] at a2
      obtain rfl := Option.some.inj a2
      rw [(hsee M M' hA).2.2, b3] at a3
      obtain rfl := Except.ok.inj a3
      rw [a4, b4]
    | false => rw [ci.exposureOff hf, ci'.exposureOff (by rw [hcf]; exact hf)]
  have n5 : y.delta = y'.delta ∧ y.gamma = y'.gamma := by
    cases hf : g.conf.delta with
    | true =>
      obtain ⟨a1, a2⟩ := ci.delta hf
      obtain ⟨b1, b2⟩ := ci'.delta (by rw [hcf]; exact hf)
      by_cases ht : i.typeName = "Stock" ∨ i.typeName = "Futures"
      · obtain ⟨v, p1, p2, p3⟩ := a1 ht
        obtain ⟨v', q1, q2, q3⟩ := b1 ht
        rw [n1, q1] at p1
        obtain rfl := Option.some.inj p1
        exact ⟨by rw [p2, q2], by rw [p3, q3]⟩
      · have ht' : i.typeName ≠ "Stock" ∧ i.typeName ≠ "Futures" := not_or.1 ht
        obtain ⟨p1, p2⟩ := a2 ht'
        obtain ⟨q1, q2⟩ := b2 ht'
        have both : ∀ u, y.delta u = y'.delta u ∧ y.gamma u = y'.gamma u := by
          intro u
          by_cases hu : u ∈ i.unds
          · obtain ⟨v, mu, md, up, dn, c1, c2, c3, c4, c5, c6, c7, c8⟩ := p1 u hu
            obtain ⟨v', mu', md', up', dn', d1, d2, d3, d4, d5, d6, d7, d8⟩ := q1 u hu
            rw [hcf] at d2 d3 d7 d8
            have hus' := hsub ht'.1 u hu
            rw [npvAt mu mu' (alike_price us cs hus M M' mu mu' hA u hus' _ c2 d2), d4] at c4
            rw [npvAt md md' (alike_price us cs hus M M' md md' hA u hus' _ c3 d3), d5] at c5
            obtain rfl := Except.ok.inj c4
            obtain rfl := Except.ok.inj c5
            rw [n1, d1] at c1
            obtain rfl := Option.some.inj c1
            exact ⟨c7.trans d7.symm, c8.trans d8.symm⟩
          · exact ⟨by rw [(p2 u hu).1, (q2 u hu).1], by rw [(p2 u hu).2, (q2 u hu).2]⟩
        exact ⟨funext fun u => (both u).1, funext fun u => (both u).2⟩
    | false =>
      obtain ⟨a1, a2⟩ := ci.deltaOff hf
      obtain ⟨b1, b2⟩ := ci'.deltaOff (by rw [hcf]; exact hf)
      exact ⟨by rw [a1, b1], by rw [a2, b2]⟩
  have n6 : y.vega = y'.vega := by
    cases hf : g.conf.vega with
    | true =>
      funext u
      have a := ci.vega hf u
      have b := ci'.vega (by rw [hcf]; exact hf) u
      by_cases hu : u ∈ i.unds ∧ i.typeName ≠ "Stock" ∧ i.typeName ≠ "Futures"
      · obtain ⟨m, a1, a2⟩ := a.1 hu
        obtain ⟨m', b1, b2⟩ := b.1 hu
        rw [hcf] at b1 b2
        rw [n1] at a2
        have hu' := hsub hu.2.1 u hu.1
        exact fd _ _ _ _ _ _ _ (alike_vol us cs hus M M' m m' hA hT hM'.vols u hu' (hvc u hu') _ _ a1 b1) a2 b2
      · rw [a.2 hu, b.2 hu]
    | false => rw [ci.vegaOff hf, ci'.vegaOff (by rw [hcf]; exact hf)]
  have n7 : y.rho = y'.rho := by
    cases hf : g.conf.rho with
    | true =>
      funext n
      have a := ci.rho hf n
      have b := ci'.rho (by rw [hcf]; exact hf) n
      rw [hgp, hcf] at b
      by_cases hu : UsesCurve g.p n i ∧ i.typeName ≠ "Stock"
      · obtain ⟨m, a1, a2⟩ := a.1 hu
        obtain ⟨m', b1, b2⟩ := b.1 hu
        rw [n1] at a2
        exact fd _ _ _ _ _ _ _ (alike_curve us cs M M' m m' hA hM'.curves n _ _ a1 b1) a2 b2
      · rw [a.2 hu, b.2 hu]
    | false => rw [ci.rhoOff hf, ci'.rhoOff (by rw [hcf]; exact hf)]
  have n8 : y.divDelta = y'.divDelta := by
    cases hf : g.conf.divDelta with
    | true =>
      funext u
      have a := ci.divDelta hf u
      have b := ci'.divDelta (by rw [hcf]; exact hf) u
      rw [hcf] at b
      by_cases hu : u ∈ i.unds ∧ i.typeName ≠ "Stock" ∧ i.typeName ≠ "Cash"
      · obtain ⟨m, a1, a2⟩ := a.1 hu
        obtain ⟨m', b1, b2⟩ := b.1 hu
        rw [n1] at a2
        exact fd _ _ _ _ _ _ _ (alike_div us cs hus M M' m m' hA hT hT' u (hsub hu.2.1 u hu.1) _ _ a1 b1) a2 b2
      · rw [a.2 hu, b.2 hu]
    | false => rw [ci.divDeltaOff hf, ci'.divDeltaOff (by rw [hcf]; exact hf)]
  refine ⟨y, y', hy, hy', ⟨n1, n2, n3, n4, n5.1, n5.2, n6, n7, n8⟩, fun hth => ?_, fun dr hdr n k hk => ?_, fun dd hdd u k hk => ?_, fun u hT3 => ⟨?_, fun hov => ?_⟩⟩
  · cases hf : g.conf.theta with
    | true =>
      obtain ⟨b, a1, a2, a3⟩ := ci.theta hf
      obtain ⟨b', b1, b2, b3⟩ := ci'.theta (by rw [hcf]; exact hf)
      rw [hd, hcf, a1] at b1
      obtain rfl := Except.ok.inj b1
      by_cases ht : i.typeName = "Stock" ∨ i.typeName = "Cash"
      · rw [a2 ht, b2 ht]
      · obtain ⟨d, d1, w, v, v', fl, p1, p2, p3, p4, p5, p6⟩ := a3 (not_or.1 ht)
        obtain ⟨d', d1', w', z, z', fl', q1, q2, q3, q4, q5, q6⟩ := b3 (not_or.1 ht)
        obtain rfl := hth b d d' a1 d1 d1'
        rw [npvAt M M' hA, q2] at p2
        obtain rfl := Except.ok.inj p2
        rw [npvAt _ _ (alike_date us cs M M' hA d w w' p1 q1), q3] at p3
        obtain rfl := Except.ok.inj p3
        rw [n3, q4] at p4
        obtain rfl := Option.some.inj p4
        rw [p6, q6, hd, ci.same.1, ci'.same.1]
    | false => rw [ci.thetaOff hf, ci'.thetaOff (by rw [hcf]; exact hf)]
  · cases hf : g.conf.rhoS with
    | true =>
      obtain ⟨dr1, a1, a2⟩ := ci.rhoS hf
      obtain ⟨dr2, b1, b2⟩ := ci'.rhoS (by rw [hcf]; exact hf)
      rw [hdr] at a1
      obtain rfl := Except.ok.inj a1
      rw [hmd, hd, hcf, hdr] at b1
      obtain rfl := Except.ok.inj b1
      have a := a2 n
      have b := b2 n
      rw [hgp, hcf, hd] at b
      by_cases hu : UsesCurve g.p n i ∧ i.typeName ≠ "Stock" ∧ i.typeName ≠ "Cash"
      · obtain ⟨l, c1, c2, c3⟩ := a.1 hu
        obtain ⟨l', d1, d2, d3⟩ := b.1 hu
        rw [c1, d1]
        show l[k]? = l'[k]?
        by_cases hkl : k < dr.length
        · by_cases hR : TenorReached (fun j => j ∈ g.insts ∧ UsesCurve g.p n j ∧ j.typeName ≠ "Stock" ∧ j.typeName ≠ "Cash") dr k
          · obtain ⟨m, m1, m2⟩ := (c3 k hkl).1 hR
            obtain ⟨m', m1', m2'⟩ := (d3 k hkl).1 (hk.1 hR)
            rw [n1] at m2
            exact fd _ _ _ _ _ _ _ (alike_curve us cs M M' m m' hA hM'.curves n _ _ m1 m1') m2 m2'
          · rw [(c3 k hkl).2 hR, (d3 k hkl).2 (fun q => hR (hk.2 q))]
        · rw [List.getElem?_eq_none (by omega), List.getElem?_eq_none (by omega)]
      · rw [a.2 hu, b.2 hu]
    | false => rw [ci.rhoSOff hf, ci'.rhoSOff (by rw [hcf]; exact hf)]
  · cases hf : g.conf.divS with
    | true =>
      obtain ⟨dd1, a1, a2⟩ := ci.divS hf
      obtain ⟨dd2, b1, b2⟩ := ci'.divS (by rw [hcf]; exact hf)
      rw [hdd] at a1
      obtain rfl := Except.ok.inj a1
      rw [hmd, hd, hcf, hdd] at b1
      obtain rfl := Except.ok.inj b1
      have a := a2 u
      have b := b2 u
      rw [hcf] at b
      by_cases hu : u ∈ names ∧ u ∈ i.unds ∧ i.typeName ≠ "Stock" ∧ i.typeName ≠ "Cash"
      · obtain ⟨l, c1, c2, c3⟩ := a.1 hu
        obtain ⟨l', d1, d2, d3⟩ := b.1 ⟨(hnm u hu.2.1).1 hu.1, hu.2⟩
        rw [c1, d1]
        show l[k]? = l'[k]?
        by_cases hkl : k < dd.length
        · by_cases hR : TenorReached (fun j => j ∈ g.insts ∧ u ∈ j.unds ∧ j.typeName ≠ "Stock" ∧ j.typeName ≠ "Cash") dd k
          · obtain ⟨m, m1, m2⟩ := (c3 k hkl).1 hR
            obtain ⟨m', m1', m2'⟩ := (d3 k hkl).1 (hk.1 hR)
            rw [n1] at m2
            exact fd _ _ _ _ _ _ _ (alike_div us cs hus M M' m m' hA hT hT' u (hsub hu.2.2.1 u hu.2.1) _ _ m1 m1') m2 m2'
          · rw [(c3 k hkl).2 hR, (d3 k hkl).2 (fun q => hR (hk.2 q))]
        · rw [List.getElem?_eq_none (by omega), List.getElem?_eq_none (by omega)]
      · rw [a.2 hu, b.2 (fun q => hu ⟨(hnm u q.2.1).2 q.1, q.2⟩)]
    | false => rw [ci.divSOff hf, ci'.divSOff (by rw [hcf]; exact hf)]
  · cases hf : g.conf.vegaS with
    | true =>
      have a := ci.vegaS hf u
      have b := ci'.vegaS (by rw [hcf]; exact hf) u
      rw [hcf, hd] at b
      by_cases hu : OnVol i u
      · obtain ⟨T, t1, v, z, c1, c2, c3, c4, c5⟩ := a.1 hu
        obtain ⟨T', t1', v', z', d1, d2, d3, d4, d5⟩ := b.1 hu
        have hTT := hT3 T T' t1 t1'
        rw [n1, d1] at c1
        obtain rfl := Option.some.inj c1
        have hu' := hsub hu.2.2.1 u hu.1
        have hz : ∀ k, k ≤ (ds'.map (timeFrom M.w.date)).length → z k = z' k := by
          intro k hk
          by_cases hb : k = (ds'.map (timeFrom M.w.date)).length ∨ TenorBeyond (ds'.map (timeFrom M.w.date)) T k
          · rw [c4 k hk hb, d4 k hk (hb.imp id (hTT k).1)]
          · obtain ⟨hb1, hb2⟩ := not_or.1 hb
            obtain ⟨m, m1, m2⟩ := c3 k (by omega) hb2
            obtain ⟨m', m1', m2'⟩ := d3 k (by omega) (fun q => hb2 ((hTT k).2 q))
            rw [npvAt m m' (alike_vol us cs hus M M' m m' hA hT hM'.vols u hu' (hvc u hu') _ _ m1 m1'), m2'] at m2
            exact (Except.ok.inj m2).symm
        rw [c5, d5]
        congr 1
        refine List.map_congr_left fun k hk => ?_
        rw [List.mem_range] at hk
        rw [hz k (by omega), hz (k + 1) (by omega)]
      · rw [a.2 hu, b.2 hu]
    | false => rw [ci.vegaSOff hf, ci'.vegaSOff (by rw [hcf]; exact hf)]
  · cases hf : g.conf.vegaM with
    | true =>
      obtain ⟨T, Mu, L, c1, t1, c2, c3, -, c5, -⟩ := (ci.vegaM hf).1 u hov
      obtain ⟨T', Mu', L', d1, t1', d2, d3, -, d5, -⟩ := (ci'.vegaM (by rw [hcf]; exact hf)).1 u hov
      rw [hd] at t1' d5
      rw [hcf] at d5
      have hTT := hT3 T T' t1 t1'
      have ho : matrixOrder (ds'.map (timeFrom M.w.date)) T' g.conf.moneyness.length = matrixOrder (ds'.map (timeFrom M.w.date)) T g.conf.moneyness.length := by
        unfold matrixOrder
        congr 1
        funext a
        by_cases q : TenorBeyond (ds'.map (timeFrom M.w.date)) T a
        · rw [if_pos q, if_pos ((hTT a).1 q)]
        · rw [if_neg q, if_neg (fun r => q ((hTT a).2 r))]
      rw [ho] at d5
      obtain ⟨v, z, p1, p2, p3, p4, p5, p6, p7, p8⟩ := c5
      obtain ⟨v', z', q1, q2, q3, q4, q5, q6, q7, q8⟩ := d5
      rw [n1, q1] at p1
      obtain rfl := Option.some.inj p1
      have hu' := hsub hov.2.2.1 u hov.1
      generalize hord : matrixOrder (ds'.map (timeFrom M.w.date)) T g.conf.moneyness.length = order at *
      have hz : ∀ k, k ≤ order.length → z k = z' k := by
        intro k hk
        cases k with
        | zero => rw [p3, q3]
        | succ k =>
          obtain ⟨m, m1, m2⟩ := p4 k (by omega)
          obtain ⟨m', m1', m2'⟩ := q4 k (by omega)
          obtain ⟨m0, s1, s2⟩ := vol_transplant us cs hus M Mu m c2 u hu' c3 _ _ m1
          obtain ⟨m0', s1', s2'⟩ := vol_transplant us cs hus M' Mu' m' d2 u hu' d3 _ _ m1'
          have al := alike_trans us cs _ _ _ (alike_trans us cs _ _ _ s2 (alike_vol us cs hus M M' m0 m0' hA hT hM'.vols u hu' (hvc u hu') _ _ s1 s1')) (alike_symm us cs _ _ s2')
          rw [npvAt m m' al, m2'] at m2
          exact (Except.ok.inj m2).symm
      rw [c1, d1]
      congr 1
      refine cells_ext (ds'.map (timeFrom M.w.date)).length g.conf.moneyness.length _ _ p5 q5 p6 q6 fun a j ha hj => ?_
      by_cases hm : (a, j) ∈ order
      · obtain ⟨k, hk, hk'⟩ := List.getElem_of_mem hm
        have hg : order[k]? = some (a, j) := by rw [List.getElem?_eq_getElem hk, hk']
        rw [p7 k _ hg, q7 k _ hg, hz k (by omega), hz (k + 1) (by omega)]
      · rw [p8 a j ha hj hm, q8 a j ha hj hm]
    | false => rw [ci.vegaMOff hf, ci'.vegaMOff (by rw [hcf]; exact hf)]

/-- The call and cash of `twinInsts` -/
noncomputable def twinFew : List Instr := [⟨"O", .option true "A" .krw false, .krw, 10, day0 2022 1 1, 0⟩, ⟨"M", .cash, .krw, 2, day0 2021 1 1, 0⟩]

/-- A call held with a put, a future, the stock and cash in one market, and with cash only in another that has a curve more: `C160_company` applies to it, with all its provisos. -/
theorem company_witness : ∃ (M M' : Mkt) (i : Instr) (P : EPricer) (e e' : Eng), OwnCodes (twinOf twinInsts) ∧ OwnCodes (twinOf twinFew) ∧
    twinFew.length = 2 ∧ twinInsts.length = 5 ∧ (M.curves "D" = none ∧ M'.curves "D" ≠ none) ∧
    SoundMkt (twinOf twinInsts) [day0 2021 7 1, day0 2022 1 1, day0 2023 1 1] M ∧
    SoundMkt (twinOf twinFew) [day0 2021 7 1, day0 2022 1 1, day0 2023 1 1] M' ∧ i ∈ twinInsts ∧
    i ∈ twinFew ∧ i.unds = ["A"] ∧ OnVol i "A" ∧ twinEngine.pricers i.code = some P ∧ SeesOnly ["A"] ["C"] P i ∧ Alike ["A"] ["C"] M M' ∧
    Tied ["A"] ["C"] M ∧ Tied ["A"] ["C"] M' ∧ M.volCurves "A" = M'.volCurves "A" ∧
    calculate (twinOf twinInsts) ["A"] { mkt := M, action := twinInsts, results := freshResults twinInsts fun _ => none } = .ok e ∧
    calculate (twinOf twinFew) ["A"] { mkt := M', action := twinFew, results := freshResults twinFew fun _ => none } = .ok e' ∧
    (∀ b d d', M.w.date.addNs (1 * dayNs) = .ok b → ThetaDate (twinOf twinInsts) b i d → ThetaDate (twinOf twinFew) b i d' → d = d') ∧
    (∀ (Q : Instr → Prop) dr (k : Nat), Q i → (∀ j ∈ twinInsts, Q j → j.typeName ≠ "Stock" ∧ j.typeName ≠ "Cash") →
      (TenorReached (fun j => j ∈ twinInsts ∧ Q j) dr k ↔ TenorReached (fun j => j ∈ twinFew ∧ Q j) dr k)) ∧
    ∀ T T', DoneBy M.w.date (fun j => j ∈ twinInsts ∧ OnVol j "A") T → DoneBy M.w.date (fun j => j ∈ twinFew ∧ OnVol j "A") T' → T = T' := by
  obtain ⟨c, v, s, -, -, h⟩ := twin_markets [[0.2, 0.2, 0.3], [0.2, 0.25, 0.3], [0.3, 0.3, 0.3]] rfl (by simp)
  obtain ⟨a1, -, a3, e, a4⟩ := h false twinInsts (fun _ h => h) (by simp [twinInsts])
  obtain ⟨b1, -, b3, e', b4⟩ := h true twinFew (by simp [twinInsts, twinFew]) (by simp [twinFew])
  have hon : OnVol ⟨"O", .option true "A" .krw false, .krw, 10, day0 2022 1 1, 0⟩ "A" := by
    refine ⟨by simp [Instr.unds], ?_, ?_, ?_⟩ <;> simp [Instr.typeName]
  have tied : ∀ x, Tied ["A"] ["C"] (twinMkt c v s x) := by
    intro x
    refine ⟨fun u hu j p hp => ?_, fun u hu n hn => ?_⟩
    · obtain rfl := List.mem_singleton.1 hu
      obtain ⟨rfl, rfl⟩ := Prod.mk.inj (Option.some.inj hp)
      rfl
    · obtain rfl := List.mem_singleton.1 hu
      obtain rfl := Option.some.inj hn
      exact ⟨by simp, by simp⟩
  have late : ∀ j ∈ twinInsts, j.typeName ≠ "Stock" ∧ j.typeName ≠ "Cash" → ∃ m, j.maturity = some m ∧ m.instant ≤ (day0 2022 1 1).instant := by
    intro j hj ht
    simp only [twinInsts, List.mem_cons, List.not_mem_nil, or_false] at hj
    rcases hj with rfl | rfl | rfl | rfl | rfl
    · exact ⟨_, rfl, le_refl _⟩
    · exact ⟨_, rfl, le_refl _⟩
    · exact ⟨_, rfl, by decide +kernel⟩
    · exact absurd rfl ht.1
    · exact absurd rfl ht.2
  have done : ∀ (L : List Instr) T, (∀ j ∈ L, j ∈ twinInsts) → ⟨"O", .option true "A" .krw false, .krw, 10, day0 2022 1 1, 0⟩ ∈ L →
      DoneBy (day0 2021 1 1) (fun j => j ∈ L ∧ OnVol j "A") T → T = timeFrom (day0 2021 1 1) (day0 2022 1 1) := by
    intro L T hL hO hT
    rcases hT with ⟨i, m, ⟨hi, hv⟩, hm, hmax, rfl⟩ | ⟨⟨i, ⟨hi, hv⟩, hm⟩, -⟩
    · have hi' := hL i hi
      simp only [twinInsts, List.mem_cons, List.not_mem_nil, or_false] at hi'
      rcases hi' with rfl | rfl | rfl | rfl | rfl
      · obtain rfl := Option.some.inj hm; rfl
      · obtain rfl := Option.some.inj hm; rfl
      · exact absurd rfl hv.2.2.2
      · exact absurd rfl hv.2.2.1
      · exact absurd rfl hv.2.1
    · obtain ⟨m, h1, -⟩ := late i (hL i hi) ⟨hv.2.2.1, hv.2.1⟩
      rw [hm] at h1
      cases h1
  have hsub : ∀ j ∈ twinFew, j ∈ twinInsts := by simp [twinInsts, twinFew]
  refine ⟨twinMkt c v s false, twinMkt c v s true, ⟨"O", .option true "A" .krw false, .krw, 10, day0 2022 1 1, 0⟩, _, e, e', a1, b1, rfl, rfl, ⟨rfl, by simp [twinMkt]⟩, a3, b3, by simp [twinInsts],
    by simp [twinFew], rfl, hon, rfl, plan_sees _ _ _ _ _ _ (by simp [twinPlan, planNames]) (by simp [twinPlan, planNames]) _, ?_, tied false, tied true, rfl, a4, b4, ?_, ?_, ?_⟩
  · refine ⟨rfl, fun n hn => ?_, fun u hu => rfl, fun u hu => rfl, fun u hu => rfl⟩
    obtain rfl := List.mem_singleton.1 hn
    rfl
  · intro b d d' hb hd hd'
    have hb' : (day0 2021 1 1).addNs (1 * dayNs) = .ok (day0 2021 1 2) := by decide +kernel
    have hb2 : b = day0 2021 1 2 := Except.ok.inj (hb.symm.trans hb')
    subst hb2
    have key : ¬ ∃ m, Instr.maturity ⟨"O", .option true "A" .krw false, .krw, 10, day0 2022 1 1, 0⟩ = some m ∧ m.instant ≤ (day0 2021 1 2).instant := by
      rintro ⟨m, hm, hle⟩
      obtain rfl := Option.some.inj hm
      exact absurd hle (by decide +kernel)
    rcases hd with ⟨-, rfl⟩ | ⟨hd, -⟩
    · rcases hd' with ⟨-, rfl⟩ | ⟨hd', -⟩
      · rfl
      · exact absurd hd' key
    · exact absurd hd key
  · intro Q dr k hQ hQt
    constructor
    · intro hr j d hj hd
      obtain ⟨i, ⟨hi, hq⟩, hm⟩ := hr j d hj hd
      obtain ⟨m, m1, m2⟩ := late i hi (hQt i hi hq)
      refine ⟨_, ⟨List.mem_cons_self, hQ⟩, fun n hn => ?_⟩
      obtain rfl := Option.some.inj hn
      exact lt_of_lt_of_le (hm m m1) m2
    · intro hr j d hj hd
      obtain ⟨i, ⟨hi, hq⟩, hm⟩ := hr j d hj hd
      exact ⟨i, ⟨hsub i hi, hq⟩, hm⟩
  · intro T T' hT hT'
    rw [done _ T (fun _ h => h) (by simp [twinInsts]) hT, done _ T' hsub (by simp [twinFew]) hT']

end Verif.Props
