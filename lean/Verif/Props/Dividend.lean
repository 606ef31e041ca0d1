import Verif.QL.Dividend
import Verif.Props.Stepwise
import Verif.Props.Schedule
import Mathlib.Algebra.BigOperators.Group.List.Basic
/-!
# C47, C48, C56: dividends and the market price under moves of the evaluation date
-/
set_option autoImplicit false
set_option linter.unusedSectionVars false
namespace Verif.Props
open Verif Verif.Civil Verif.QL

variable {K : Type} [Field K] [LinearOrder K] [IsStrictOrderedRing K]

/-! ## Specification -/

/-- The product of `1 - yield` over the dividends selected by `sel`. -/
def keep (sel : DT → Bool) (l : List (DT × K)) : K := ((l.filter fun p => sel p.1).map fun p => 1 - p.2).prod

/-- From the evaluation date (included, as instant) up to the calendar day of `d` (included). -/
def due (eval d x : DT) : Bool := eval.instant ≤ x.instant ∧ x.day ≤ d.day

/-- After `a`, up to and including `b`. -/
def between (a b x : DT) : Bool := a.instant < x.instant ∧ x.instant ≤ b.instant

/-! ## Lemmas -/

theorem yyyymmdd_lt (a b : DT) : yyyymmdd a < yyyymmdd b ↔ a.day < b.day := by
  have va := ofOrd_valid a.day
  have vb := ofOrd_valid b.day
  have h := ord_lt_iff (ofOrd a.day) (ofOrd b.day) va vb
  rw [ord_ofOrd, ord_ofOrd] at h
  rw [h]
  have d1 := dim_le (ofOrd a.day).y (ofOrd a.day).m
  have d2 := dim_le (ofOrd b.day).y (ofOrd b.day).m
  obtain ⟨a1, a2, a3, a4⟩ := va
  obtain ⟨b1, b2, b3, b4⟩ := vb
  unfold yyyymmdd Ymd.lt DT.ymd
  omega

theorem yyyymmdd_le (a b : DT) : yyyymmdd a ≤ yyyymmdd b ↔ a.day ≤ b.day := by
  have := yyyymmdd_lt b a
  omega

/-- How many leading dates lie before the evaluation date. -/
def pastCount (ex : List DT) (eval : DT) : Nat := (ex.takeWhile fun d => decide (d.instant < eval.instant)).length

theorem dropPast_keep (ex : List DT) (eval : DT) (i c : Nat) (hc : c < ex.length)
    (hge : ¬ ex[c].instant < eval.instant) (ys : List K) (ns : List Int) :
    dropPast ex eval i c ys ns = .ok (ys, ns) := by
  fun_induction dropPast ex eval i c ys ns with
  | case1 i c ys ns hi hc' hlt ih => exact absurd hlt hge
  | case2 i c ys ns hi hc' hlt ih => exact ih hc hge
  | case3 i c ys ns hi hc' => exact absurd hc hc'
  | case4 => rfl

theorem dropPast_eq (ex : List DT) (eval : DT) (c : Nat) (ys : List K) (ns : List Int) (hne : ex ≠ [])
    (h1 : ys.length + c = ex.length) (h2 : ns.length + c = ex.length)
    (hall : ∀ j (hj : j < ex.length), j < c → ex[j].instant < eval.instant) :
    dropPast ex eval 0 c ys ns =
      if ∀ d ∈ ex, d.instant < eval.instant then .error .index
      else .ok (ys.drop (pastCount ex eval - c), ns.drop (pastCount ex eval - c)) := by
  have hpos := List.length_pos_of_ne_nil hne
  have htw : ∀ (l : List DT) (k : Nat) (hk : k ≤ l.length), (∀ j (hj : j < l.length), j < k → l[j].instant < eval.instant) →
      k ≤ pastCount l eval ∧ (∀ h : k < l.length, ¬ l[k].instant < eval.instant → pastCount l eval = k) := by
    intro l
    induction l with
    | nil => intro k hk _; simp at hk; subst hk; exact ⟨Nat.zero_le _, fun h => absurd h (by simp)⟩
    | cons a l ih =>
      intro k hk hj
      cases k with
      | zero =>
        refine ⟨Nat.zero_le _, fun h hn => ?_⟩
        simp only [List.getElem_cons_zero] at hn
        simp [pastCount, hn]
      | succ k =>
        have h0 := hj 0 (by simp) (by omega)
        simp only [List.getElem_cons_zero] at h0
        obtain ⟨p1, p2⟩ := ih k (by simpa using hk) fun j hj' hlt => by
          have := hj (j + 1) (by simp; omega) (by omega)
          simpa using this
        have e : pastCount (a :: l) eval = pastCount l eval + 1 := by
          simp [pastCount, h0]
        refine ⟨by omega, fun h hn => ?_⟩
        rw [e, p2 (by simpa using h) (by simpa using hn)]
  generalize hm : ex.length - c = m
  induction m generalizing c ys ns with
  | zero =>
    have hcl : c = ex.length := by omega
    rw [if_pos]
    · rw [dropPast, if_pos hpos, dif_neg (by omega)]
    · intro d hd
      obtain ⟨j, hj, rfl⟩ := List.getElem_of_mem hd
      exact hall j hj (by omega)
  | succ m ih =>
    have hc : c < ex.length := by omega
    rw [dropPast, if_pos hpos, dif_pos hc]
    by_cases hlt : ex[c].instant < eval.instant
    · rw [if_pos hlt]
      have r1 : removeAt ys 0 = .ok (ys.drop 1) := by
        unfold removeAt; rw [if_pos (by omega)]; cases ys <;> simp
      have r2 : removeAt ns 0 = .ok (ns.drop 1) := by
        unfold removeAt; rw [if_pos (by omega)]; cases ns <;> simp
      rw [r1, Res.bind_ok, r2, Res.bind_ok]
      have hall' : ∀ j (hj : j < ex.length), j < c + 1 → ex[j].instant < eval.instant := by
        intro j hj hjc
        by_cases h : j = c
        · subst h; exact hlt
        · exact hall j hj (by omega)
      rw [ih (c + 1) (ys.drop 1) (ns.drop 1) (by simp; omega) (by simp; omega) hall' (by omega)]
      by_cases hA : ∀ d ∈ ex, d.instant < eval.instant
      · rw [if_pos hA, if_pos hA]
      · rw [if_neg hA, if_neg hA, List.drop_drop, List.drop_drop]
        have := (htw ex (c + 1) (by omega) hall').1
        rw [show 1 + (pastCount ex eval - (c + 1)) = pastCount ex eval - c by omega]
    · rw [if_neg hlt, dropPast_keep ex eval 1 c hc hlt, if_neg]
      · rw [(htw ex c (by omega) hall).2 hc hlt]
        simp
      · intro hA
        exact hlt (hA _ (List.getElem_mem hc))

theorem drop_past (l : List (DT × K)) (eval : DT) (hs : (l.map Prod.fst).Pairwise fun a b => a.instant ≤ b.instant) :
    l.drop (pastCount (l.map Prod.fst) eval) = l.filter fun p => decide (eval.instant ≤ p.1.instant) := by
  induction l with
  | nil => rfl
  | cons p l ih =>
    rw [List.map_cons, List.pairwise_cons] at hs
    by_cases h : p.1.instant < eval.instant
    · have e : pastCount ((p :: l).map Prod.fst) eval = pastCount (l.map Prod.fst) eval + 1 := by
        simp [pastCount, h]
      rw [e, List.drop_succ_cons, ih hs.2, List.filter_cons_of_neg (by simpa using h)]
    · have e : pastCount ((p :: l).map Prod.fst) eval = 0 := by simp [pastCount, h]
      rw [e, List.drop_zero]
      symm
      rw [List.filter_eq_self]
      intro q hq
      rcases List.mem_cons.1 hq with rfl | hq
      · simpa using h
      · have := hs.1 q.1 (List.mem_map_of_mem hq)
        simp only [decide_eq_true_eq]
        omega

theorem ratios_length (t : K) (ys : List K) : (ratios t ys).length = ys.length := by
  induction ys generalizing t with
  | nil => rfl
  | cons y ys ih => simp [ratios, ih]

theorem ratios_get (t : K) (ys : List K) (i : Nat) (hi : i < (ratios t ys).length) :
    (ratios t ys)[i] = t * ((ys.take (i + 1)).map fun y => 1 - y).prod := by
  induction ys generalizing t i with
  | nil => simp [ratios] at hi
  | cons y ys ih =>
    cases i with
    | zero => simp [ratios]
    | succ i =>
      simp only [ratios, List.getElem_cons_succ]
      rw [ih]
      simp [mul_assoc]

/-- A strictly increasing list is cut by a value at one place. -/
theorem cut_at (l : List (Int × K)) (x : Int) (hs : (l.map Prod.fst).Pairwise (· < ·)) :
    ∃ k ≤ l.length, (l.filter fun p => decide (p.1 ≤ x)) = l.take k ∧
      (∀ i (hi : i < l.length), i < k → l[i].1 ≤ x) ∧ (∀ i (hi : i < l.length), k ≤ i → x < l[i].1) := by
  induction l with
  | nil => exact ⟨0, le_refl _, rfl, fun i hi => absurd hi (by simp), fun i hi => absurd hi (by simp)⟩
  | cons p l ih =>
    rw [List.map_cons, List.pairwise_cons] at hs
    obtain ⟨k, k1, k2, k3, k4⟩ := ih hs.2
    by_cases h : p.1 ≤ x
    · refine ⟨k + 1, by simp; omega, ?_, ?_, ?_⟩
      · rw [List.filter_cons_of_pos (by simpa using h), k2, List.take_succ_cons]
      · intro i hi hik
        cases i with
        | zero => exact h
        | succ i => exact k3 i (by simpa using hi) (by omega)
      · intro i hi hik
        cases i with
        | zero => omega
        | succ i => exact k4 i (by simpa using hi) (by omega)
    · have hx : x < p.1 := by omega
      have hall : ∀ q ∈ p :: l, x < q.1 := by
        intro q hq
        rcases List.mem_cons.1 hq with rfl | hq
        · exact hx
        · have := hs.1 q.1 (List.mem_map_of_mem hq)
          omega
      refine ⟨0, Nat.zero_le _, ?_, fun i hi hk => absurd hk (by omega), ?_⟩
      · rw [List.take_zero, List.filter_eq_nil_iff]
        intro q hq
        have := hall q hq
        simp only [decide_eq_true_eq]
        omega
      · intro i hi _
        exact hall _ (List.getElem_mem hi)

/-- The interpolator over the dividends `l` (date integer, yield) returns the product up to the query. -/
theorem mkInterp_spec (l : List (Int × K)) (hs : (l.map Prod.fst).Pairwise (· < ·)) :
    ∃ it, mkInterp (l.map Prod.fst) (ratios 1 (l.map Prod.snd)) = .ok it ∧
      ∀ x, it.eval x = .ok ((l.filter fun p => decide (p.1 ≤ x)).map fun p => 1 - p.2).prod := by
  cases hl : l with
  | nil => exact ⟨.const 1, rfl, fun x => by simp [DivInterp.eval]⟩
  | cons p l' =>
    rw [← hl]
    have hpos : 0 < l.length := by rw [hl]; simp
    have hlen : (l.map Prod.fst).length = (ratios (1 : K) (l.map Prod.snd)).length := by simp [ratios_length]
    have hd : l.map Prod.fst ≠ [] := by rw [hl]; simp
    have hnew := step_new (allow := true) (left := some (1 : K)) (right := (ratios (1 : K) (l.map Prod.snd)).getLast?)
      hs hd hlen
    refine ⟨.step { dom := l.map Prod.fst, val := ratios 1 (l.map Prod.snd), allow := true, left := some 1
                    right := (ratios (1 : K) (l.map Prod.snd)).getLast? }, ?_, ?_⟩
    · unfold mkInterp
      rw [if_neg (by rw [hl]; simp [ratios]), hnew, Res.bind_ok]
    · intro x
      obtain ⟨k, k1, k2, k3, k4⟩ := cut_at l x hs
      have hval : ∀ i, (h : i < (ratios (1 : K) (l.map Prod.snd)).length) → i + 1 = k →
          (ratios (1 : K) (l.map Prod.snd))[i] = ((l.take k).map fun p => 1 - p.2).prod := by
        intro i h e
        rw [ratios_get, one_mul, e, ← List.map_take, List.map_map]
        rfl
      rw [k2]
      unfold DivInterp.eval
      simp only
      by_cases hk0 : k = 0
      · subst hk0
        have := (C39_outside _ _ true _ _ _ hnew hs hlen (by simpa using hpos) x).1
          (by rw [List.getElem_map]; exact k4 0 hpos (le_refl _))
        rw [this]
        simp
      · have hkl : k - 1 < l.length := by omega
        by_cases hin : k = l.length ∧ x ≠ (l[k - 1]).1
        · have hx : (l[k - 1]).1 < x := lt_of_le_of_ne (k3 (k - 1) hkl (by omega)) (Ne.symm hin.2)
          have := (C39_outside _ _ true _ _ _ hnew hs hlen (by simpa using hpos) x).2 (by
            have e : ∀ i (hi : i < l.length), i = k - 1 → l[i].1 < x := by rintro i hi rfl; exact hx
            rw [List.getElem_map]
            exact e _ _ (by simp; omega))
          rw [this]
          simp only [if_true]
          refine congrArg Except.ok ?_
          rw [List.getLast?_eq_getElem?, List.getElem?_eq_getElem (by simp [ratios_length]; omega), Option.getD_some]
          exact hval _ _ (by simp [ratios_length]; omega)
        · rw [C39_inside _ _ true _ _ _ hnew hs hlen (k - 1) (by simpa using hkl) x
            (by rw [List.getElem_map]; exact k3 _ hkl (by omega))
            (fun h => by rw [List.getElem_map]; exact k4 _ (by simpa using h) (by omega))
            (fun h => by
              rw [List.getElem_map]
              by_contra hx
              exact hin ⟨by simp at h; omega, hx⟩)]
          refine congrArg Except.ok ?_
          exact hval _ _ (by omega)

/-- The dividends are given in order: one per calendar day, increasing both as days and as instants. -/
def DivOrdered (ds : List DT) : Prop := (ds.Pairwise fun a b => a.day < b.day) ∧ ds.Pairwise fun a b => a.instant ≤ b.instant

theorem zip_fst {A B : Type} : ∀ (l : List A) (m : List B), l.length = m.length → (l.zip m).map Prod.fst = l
  | [], _, _ => by simp
  | a :: l, [], h => by simp at h
  | a :: l, b :: m, h => by simp [zip_fst l m (by simpa using h)]

theorem zip_snd {A B : Type} : ∀ (l : List A) (m : List B), l.length = m.length → (l.zip m).map Prod.snd = m
  | [], [], _ => by simp
  | [], b :: m, h => by simp at h
  | a :: l, [], h => by simp at h
  | a :: l, b :: m, h => by simp [zip_snd l m (by simpa using h)]

/-- The interpolator built by `new` and `update_evaluation_date`. -/
theorem rebuild (ds : List DT) (ys : List K) (hlen : ds.length = ys.length) (hne : ds ≠ []) (ho : DivOrdered ds) (eval : DT) :
    (do let kept ← dropPast ds eval 0 0 ys (ds.map yyyymmdd)
        mkInterp kept.2 (ratios 1 kept.1) : Res (DivInterp K)) =
      (if ∀ d ∈ ds, d.instant < eval.instant then .error .index else
        mkInterp (((ds.zip ys).filter fun p => decide (eval.instant ≤ p.1.instant)).map fun p => yyyymmdd p.1)
          (ratios 1 (((ds.zip ys).filter fun p => decide (eval.instant ≤ p.1.instant)).map fun p => p.2))) := by
  rw [dropPast_eq ds eval 0 ys (ds.map yyyymmdd) hne (by omega) (by simp) (fun j hj h => absurd h (by omega))]
  by_cases hA : ∀ d ∈ ds, d.instant < eval.instant
  · rw [if_pos hA, if_pos hA]; rfl
  · rw [if_neg hA, if_neg hA, Res.bind_ok]
    have e := drop_past (ds.zip ys) eval (by rw [zip_fst ds ys hlen]; exact ho.2)
    rw [zip_fst ds ys hlen] at e
    simp only [Nat.sub_zero]
    have e1 : (ds.map yyyymmdd).drop (pastCount ds eval) =
        ((ds.zip ys).drop (pastCount ds eval)).map fun p => yyyymmdd p.1 := by
      rw [List.map_drop]
      congr 1
      conv_lhs => rw [← zip_fst ds ys hlen, List.map_map]
      rfl
    have e2 : ys.drop (pastCount ds eval) = ((ds.zip ys).drop (pastCount ds eval)).map fun p => p.2 := by
      rw [List.map_drop]
      congr 1
      exact (zip_snd ds ys hlen).symm
    rw [e1, e2, e]

/-- The product over the kept dividends, in terms of the dates. -/
theorem kept_spec (l : List (DT × K)) (eval : DT) (ho : (l.map Prod.fst).Pairwise fun a b => a.day < b.day) :
    ∃ it, mkInterp ((l.filter fun p => decide (eval.instant ≤ p.1.instant)).map fun p => yyyymmdd p.1)
        (ratios 1 ((l.filter fun p => decide (eval.instant ≤ p.1.instant)).map fun p => p.2)) = .ok it ∧
      ∀ d, it.eval (yyyymmdd d) = .ok (keep (due eval d) l) := by
  obtain ⟨it, h1, h2⟩ := mkInterp_spec
    ((l.filter fun p => decide (eval.instant ≤ p.1.instant)).map fun p => (yyyymmdd p.1, p.2)) (by
      rw [List.map_map]
      have : (l.filter fun p => decide (eval.instant ≤ p.1.instant)).Pairwise fun a b => a.1.day < b.1.day :=
        (List.pairwise_map.1 ho).sublist List.filter_sublist
      rw [List.pairwise_map]
      exact this.imp fun h => (yyyymmdd_lt _ _).2 h)
  refine ⟨it, by simpa [List.map_map, Function.comp_def] using h1, fun d => ?_⟩
  rw [h2 (yyyymmdd d)]
  refine congrArg Except.ok ?_
  unfold keep due
  rw [List.filter_map, List.map_map, List.filter_filter]
  have : (l.filter fun a => ((fun p : Int × K => decide (p.1 ≤ yyyymmdd d)) ∘ fun p : DT × K => (yyyymmdd p.1, p.2)) a &&
      decide (eval.instant ≤ a.1.instant)) =
      l.filter fun p => decide (eval.instant ≤ p.1.instant ∧ p.1.day ≤ d.day) := by
    congr 1
    funext p
    simp only [Function.comp]
    have hle := yyyymmdd_le p.1 d
    by_cases h1 : yyyymmdd p.1 ≤ yyyymmdd d <;> by_cases h2 : eval.instant ≤ p.1.instant <;> simp [h1, h2, ← hle]
  rw [this]
  rfl

/-! ## C48 -/

theorem yieldsOf_eq (amounts : List K) (spot : K) (h : spot ≠ 0) :
    yieldsOf amounts spot = .ok (amounts.map fun a => a / spot) := by
  unfold yieldsOf
  induction amounts with
  | nil => rfl
  | cons a l ih =>
    simp only [mapRes]
    rw [ih]
    simp [divK, h]

/-- C48. A dividend object built at an evaluation date deducts, on every day `d`, exactly the dividends with ex-date
from the evaluation date up to `d`; but if the last ex-date is past, the constructor panics (index out of range). -/
theorem C48_new (eval : DT) (ds : List DT) (amounts : List K) (spot : K) (hlen : ds.length = amounts.length)
    (hne : ds ≠ []) (ho : DivOrdered ds) (hspot : spot ≠ 0) :
    ((∃ d ∈ ds, eval.instant ≤ d.instant) → ∃ v, Dividend.new eval (some ds) amounts spot = .ok v ∧
      v.pairs = ds.zip (amounts.map fun a => a / spot) ∧ ∀ d, v.ratio d = .ok (keep (due eval d) v.pairs)) ∧
    ((∀ d ∈ ds, d.instant < eval.instant) → Dividend.new eval (some ds) amounts spot = .error .index) := by
  have key := rebuild ds (amounts.map fun a => a / spot) (by simpa using hlen) hne ho eval
  have unf : Dividend.new eval (some ds) amounts spot = (do
      let it ← (do let kept ← dropPast ds eval 0 0 (amounts.map fun a => a / spot) (ds.map yyyymmdd)
                   mkInterp kept.2 (ratios 1 kept.1) : Res (DivInterp K))
      .ok { dates := ds, amounts := amounts, yields := amounts.map fun a => a / spot, spot := spot, interp := it }) := by
    cases ds with
    | nil => exact absurd rfl hne
    | cons d ds' =>
      simp only [Dividend.new]
      rw [yieldsOf_eq amounts spot hspot, Res.bind_ok]
      cases dropPast (d :: ds') eval 0 0 (amounts.map fun a => a / spot) (List.map yyyymmdd (d :: ds')) <;> rfl
  constructor
  · rintro ⟨d, hd, hge⟩
    rw [if_neg (by intro h; have := h d hd; omega)] at key
    obtain ⟨it, h1, h2⟩ := kept_spec (ds.zip (amounts.map fun a => a / spot)) eval
      (by rw [zip_fst _ _ (by simpa using hlen)]; exact ho.1)
    rw [h1] at key
    rw [unf, key, Res.bind_ok]
    exact ⟨_, rfl, rfl, fun d => h2 d⟩
  · intro h
    rw [if_pos h] at key
    rw [unf, key]
    rfl

/-- C48. The same after the object was told a new evaluation date, whatever dates it was told before: the dividends are
never lost, and going past the last ex-date panics. -/
theorem C48_update (v : Dividend K) (hlen : v.dates.length = v.yields.length) (hne : v.dates ≠ [])
    (ho : DivOrdered v.dates) (eval : DT) :
    ((∃ d ∈ v.dates, eval.instant ≤ d.instant) → ∃ v', v.update eval = .ok v' ∧ v'.pairs = v.pairs ∧
      v'.dates = v.dates ∧ v'.amounts = v.amounts ∧ v'.spot = v.spot ∧
      ∀ d, v'.ratio d = .ok (keep (due eval d) v.pairs)) ∧
    ((∀ d ∈ v.dates, d.instant < eval.instant) → v.update eval = .error .index) := by
  have key := rebuild v.dates v.yields hlen hne ho eval
  have unf : v.update eval = (do
      let it ← (do let kept ← dropPast v.dates eval 0 0 v.yields (v.dates.map yyyymmdd)
                   mkInterp kept.2 (ratios 1 kept.1) : Res (DivInterp K))
      .ok { v with interp := it }) := by
    unfold Dividend.update
    cases dropPast v.dates eval 0 0 v.yields (List.map yyyymmdd v.dates) <;> rfl
  constructor
  · rintro ⟨d, hd, hge⟩
    rw [if_neg (by intro h; have := h d hd; omega)] at key
    obtain ⟨it, h1, h2⟩ := kept_spec (v.dates.zip v.yields) eval (by rw [zip_fst _ _ hlen]; exact ho.1)
    rw [h1] at key
    rw [unf, key, Res.bind_ok]
    exact ⟨_, rfl, rfl, rfl, rfl, rfl, fun d => h2 d⟩
  · intro h
    rw [if_pos h] at key
    rw [unf, key]
    rfl

/-- C48. No dates, or an empty list of dates: refused. -/
theorem C48_refused (eval : DT) (amounts : List K) (spot : K) :
    Dividend.new eval none amounts spot = .error .err ∧ Dividend.new eval (some []) amounts spot = .error .err :=
  ⟨rfl, rfl⟩

/-! ## C56: bumping dividends -/

/-- C56. A bump adds `b` to the amounts of exactly the dividends with date in `(d1, d2]` (by calendar day; `none` is
unbounded), and recomputes the yields. Afterwards the deduction ratio counts *all* dividends up to the day, also those
before the evaluation date, until the next evaluation date is set. -/
theorem C56_bump (v : Dividend K) (hlen : v.dates.length = v.amounts.length) (ho : DivOrdered v.dates)
    (hspot : v.spot ≠ 0) (d1 d2 : Option DT) (b : K)
    (h12 : ∀ a c, d1 = some a → d2 = some c → a.day < c.day)
    (hy : ∀ d, d1 = some d ∨ d2 = some d ∨ d ∈ v.dates → -9999 ≤ d.ymd.y ∧ d.ymd.y ≤ 9999) :
    ∃ v', v.bump d1 d2 b = .ok v' ∧ v'.dates = v.dates ∧ v'.spot = v.spot ∧
      v'.amounts = List.zipWith (fun a d => if (∀ x, d1 = some x → x.day < d.day) ∧ (∀ x, d2 = some x → d.day ≤ x.day)
        then a + b else a) v.amounts v.dates ∧
      v'.yields = v'.amounts.map (fun a => a / v.spot) ∧
      ∀ d, v'.ratio d = .ok (keep (fun x => decide (x.day ≤ d.day)) v'.pairs) := by
  have ylo : ∀ d : DT, -9999 ≤ d.ymd.y → d.ymd.y ≤ 9999 → -99999999 < yyyymmdd d ∧ yyyymmdd d ≤ 99999999 := by
    intro d h1 h2
    have v := ofOrd_valid d.day
    have := dim_le (ofOrd d.day).y (ofOrd d.day).m
    obtain ⟨a1, a2, a3, a4⟩ := v
    unfold yyyymmdd
    unfold DT.ymd at *
    omega
  generalize hn1 : bumpLow d1 = n1
  generalize hn2 : bumpHigh d2 = n2
  have hlt : n1 < n2 := by
    cases d1 with
    | none =>
      simp only [bumpLow] at hn1
      cases d2 with
      | none => simp only [bumpHigh] at hn2; omega
      | some c =>
        simp only [bumpHigh] at hn2
        obtain ⟨a, b⟩ := hy c (Or.inr (Or.inl rfl))
        have := ylo c a b
        omega
    | some a =>
      simp only [bumpLow] at hn1
      cases d2 with
      | none =>
        simp only [bumpHigh] at hn2
        obtain ⟨x, y⟩ := hy a (Or.inl rfl)
        have v := ofOrd_valid a.day
        have := dim_le (ofOrd a.day).y (ofOrd a.day).m
        obtain ⟨a1, a2, a3, a4⟩ := v
        unfold yyyymmdd at hn1
        unfold DT.ymd at *
        omega
      | some c =>
        simp only [bumpHigh] at hn2
        have := (yyyymmdd_lt a c).2 (h12 a c rfl rfl)
        omega
  have hsel : ∀ d ∈ v.dates, (n1 < yyyymmdd d ∧ yyyymmdd d ≤ n2) ↔
      ((∀ x, d1 = some x → x.day < d.day) ∧ (∀ x, d2 = some x → d.day ≤ x.day)) := by
    intro d hd
    obtain ⟨y1, y2⟩ := hy d (Or.inr (Or.inr hd))
    have hb := ylo d y1 y2
    refine and_congr ?_ ?_
    · cases d1 with
      | none => simp only [bumpLow] at hn1; subst hn1; simp [hb.1]
      | some a => simp only [bumpLow] at hn1; subst hn1; simp [yyyymmdd_lt]
    · cases d2 with
      | none => simp only [bumpHigh] at hn2; subst hn2; simp [hb.2]
      | some a => simp only [bumpHigh] at hn2; subst hn2; simp [yyyymmdd_le]
  have ham : List.zipWith (fun a n => a + (if n1 < n ∧ n ≤ n2 then (1 : K) else 0) * b) v.amounts (v.dates.map yyyymmdd)
      = List.zipWith (fun a d => if (∀ x, d1 = some x → x.day < d.day) ∧ (∀ x, d2 = some x → d.day ≤ x.day)
        then a + b else a) v.amounts v.dates := by
    rw [List.zipWith_map_right]
    have : ∀ (l : List K) (m : List DT), (∀ d ∈ m, d ∈ v.dates) →
        List.zipWith (fun a d => a + (if n1 < yyyymmdd d ∧ yyyymmdd d ≤ n2 then (1 : K) else 0) * b) l m =
        List.zipWith (fun a d => if (∀ x, d1 = some x → x.day < d.day) ∧ (∀ x, d2 = some x → d.day ≤ x.day)
        then a + b else a) l m := by
      intro l
      induction l with
      | nil => intro m _; simp
      | cons a l ih =>
        intro m hm
        cases m with
        | nil => simp
        | cons d m =>
          rw [List.zipWith_cons_cons, List.zipWith_cons_cons, ih m fun x hx => hm x (List.mem_cons_of_mem _ hx)]
          congr 1
          by_cases hc : n1 < yyyymmdd d ∧ yyyymmdd d ≤ n2
          · rw [if_pos hc, if_pos ((hsel d (hm d (by simp))).1 hc), one_mul]
          · rw [if_neg hc, if_neg (fun h => hc ((hsel d (hm d (by simp))).2 h)), zero_mul, add_zero]
    exact this _ _ fun d hd => hd
  generalize hA : List.zipWith (fun a d => if (∀ x, d1 = some x → x.day < d.day) ∧ (∀ x, d2 = some x → d.day ≤ x.day)
        then a + b else a) v.amounts v.dates = A at ham
  have hAl : v.dates.length = (A.map fun a => a / v.spot).length := by
    rw [← hA]; simp [List.length_zipWith]; omega
  obtain ⟨it, h1, h2⟩ := mkInterp_spec ((v.dates.zip (A.map fun a => a / v.spot)).map fun p => (yyyymmdd p.1, p.2)) (by
    rw [List.map_map]
    have : ((v.dates.zip (A.map fun a => a / v.spot)).map Prod.fst).Pairwise fun a b => a.day < b.day := by
      rw [zip_fst _ _ hAl]; exact ho.1
    rw [List.pairwise_map] at this ⊢
    exact this.imp fun h => (yyyymmdd_lt _ _).2 h)
  have e1 : ((v.dates.zip (A.map fun a => a / v.spot)).map fun p => (yyyymmdd p.1, p.2)).map Prod.fst
      = v.dates.map yyyymmdd := by
    rw [List.map_map]
    conv_rhs => rw [← zip_fst _ _ hAl, List.map_map]
    rfl
  have e2 : ((v.dates.zip (A.map fun a => a / v.spot)).map fun p => (yyyymmdd p.1, p.2)).map Prod.snd
      = A.map fun a => a / v.spot := by
    rw [List.map_map]
    exact zip_snd _ _ hAl
  rw [e1, e2] at h1
  refine ⟨{ v with amounts := A, yields := A.map fun a => a / v.spot, interp := it }, ?_, rfl, rfl, rfl, rfl, ?_⟩
  · unfold Dividend.bump
    dsimp only
    rw [hn1, hn2, if_neg (by omega), ham, yieldsOf_eq _ _ hspot, Res.bind_ok, h1, Res.bind_ok]
  · intro d
    unfold Dividend.ratio Dividend.pairs keep
    simp only
    have := h2 (yyyymmdd d)
    rw [List.filter_map, List.map_map] at this
    refine this.trans (congrArg Except.ok ?_)
    congr 2
    congr 1
    funext p
    simp only [Function.comp, yyyymmdd_le]

/-- C56 (refused): an empty interval. -/
theorem C56_refused (v : Dividend K) (d1 d2 : DT) (b : K) (h : d2.day ≤ d1.day) :
    v.bump (some d1) (some d2) b = .error .err := by
  unfold Dividend.bump
  dsimp only [bumpLow, bumpHigh]
  rw [if_pos ((yyyymmdd_le d2 d1).2 h)]

/-! ## C47 -/

theorem deduct_eq (a b : DT) (v : K) (l : List (DT × K)) : deduct a b v l = v * keep (between a b) l := by
  induction l generalizing v with
  | nil => simp [deduct, keep]
  | cons p l ih =>
    obtain ⟨d, y⟩ := p
    unfold deduct
    by_cases h : d.instant > a.instant ∧ d.instant ≤ b.instant
    · rw [if_pos h, ih]
      unfold keep
      rw [List.filter_cons_of_pos (by simp [between]; omega)]
      simp [mul_assoc]
    · rw [if_neg h, ih]
      unfold keep
      rw [List.filter_cons_of_neg (by simp [between]; omega)]

theorem keep_ne_zero (sel : DT → Bool) (l : List (DT × K)) (h : ∀ p ∈ l, p.2 ≠ 1) : keep sel l ≠ 0 := by
  unfold keep
  rw [Ne, List.prod_eq_zero_iff]
  simp only [List.mem_map, List.mem_filter]
  rintro ⟨p, ⟨hp, -⟩, e⟩
  exact h p hp (by linear_combination -e)

theorem restore_eq (a b : DT) (v : K) (l : List (DT × K)) (h : ∀ p ∈ l, p.2 ≠ 1) :
    restore a b v l = .ok (v / keep (between b a) l) := by
  induction l generalizing v with
  | nil => simp [restore, keep]
  | cons p l ih =>
    obtain ⟨d, y⟩ := p
    have h1 : (1 : K) - y ≠ 0 := by
      intro e
      exact h (d, y) (by simp) (by simp only; linear_combination -e)
    have h2 : ∀ p ∈ l, p.2 ≠ 1 := fun p hp => h p (List.mem_cons_of_mem _ hp)
    unfold restore
    by_cases hb : d.instant > b.instant ∧ d.instant ≤ a.instant
    · rw [if_pos hb]
      unfold divK
      rw [if_neg h1, Res.bind_ok, ih _ h2]
      refine congrArg Except.ok ?_
      unfold keep
      rw [List.filter_cons_of_pos (by simp [between]; omega)]
      simp [div_div]
    · rw [if_neg hb, ih _ h2]
      unfold keep
      rw [List.filter_cons_of_neg (by simp [between]; omega)]

theorem keep_cons (sel : DT → Bool) (p : DT × K) (l : List (DT × K)) :
    keep sel (p :: l) = (if sel p.1 then 1 - p.2 else 1) * keep sel l := by
  unfold keep
  by_cases h : sel p.1 = true
  · simp [h]
  · simp [h]

theorem keep_split (a b c : DT) (h1 : a.instant ≤ b.instant) (h2 : b.instant ≤ c.instant) (l : List (DT × K)) :
    keep (between a c) l = keep (between a b) l * keep (between b c) l := by
  induction l with
  | nil => simp [keep]
  | cons p l ih =>
    rw [keep_cons, keep_cons, keep_cons, ih]
    have e : (if between a c p.1 then 1 - p.2 else 1 : K)
        = (if between a b p.1 then 1 - p.2 else 1) * (if between b c p.1 then 1 - p.2 else 1) := by
      simp only [between, decide_eq_true_eq]
      by_cases ha : a.instant < p.1.instant ∧ p.1.instant ≤ b.instant
      · rw [if_pos ha, if_pos (by omega), if_neg (by omega), mul_one]
      · rw [if_neg ha, one_mul]
        by_cases hb : b.instant < p.1.instant ∧ p.1.instant ≤ c.instant
        · rw [if_pos hb, if_pos (by omega)]
        · rw [if_neg hb, if_neg (by omega)]
    rw [e]
    ring

theorem keep_empty (a b : DT) (h : b.instant ≤ a.instant) (l : List (DT × K)) : keep (between a b) l = 1 := by
  unfold keep
  rw [List.filter_eq_nil_iff.2]
  · simp
  · intro p _
    simp only [between, decide_eq_true_eq]
    omega

/-- Specification: the price `w` at date `b` corresponds to the price `v` at date `a`: equal up to the dividends between. -/
def Equivalent (l : List (DT × K)) (v : K) (a : DT) (w : K) (b : DT) : Prop :=
  v * keep (between a b) l = w * keep (between b a) l

theorem equivalent_trans (l : List (DT × K)) (hl : ∀ p ∈ l, p.2 ≠ 1) {u v w : K} {a b c : DT}
    (h1 : Equivalent l u a v b) (h2 : Equivalent l v b w c) : Equivalent l u a w c := by
  unfold Equivalent at *
  have nz := fun x y => keep_ne_zero (between x y) l hl
  rcases le_total a.instant b.instant with ab | ab <;> rcases le_total b.instant c.instant with bc | bc <;>
    rcases le_total a.instant c.instant with ac | ac
  · rw [keep_empty b a ab, mul_one] at h1
    rw [keep_empty c b bc, mul_one] at h2
    rw [keep_empty c a ac, mul_one, keep_split a b c ab bc, ← mul_assoc, h1, h2]
  · -- all equal
    rw [keep_empty b a ab, mul_one, keep_empty a b (by omega), mul_one] at h1
    rw [keep_empty c b bc, mul_one, keep_empty b c (by omega), mul_one] at h2
    rw [keep_empty a c ac, keep_empty c a (by omega), h1, h2]
  · rw [keep_empty b a ab, mul_one] at h1
    rw [keep_empty b c bc, mul_one] at h2
    rw [keep_empty c a ac, mul_one]
    rw [keep_split a c b ac bc, ← mul_assoc, h2] at h1
    exact mul_right_cancel₀ (nz c b) h1
  · rw [keep_empty b a ab, mul_one] at h1
    rw [keep_empty b c bc, mul_one] at h2
    rw [keep_empty a c ac, mul_one]
    rw [keep_split c a b ac ab, ← mul_assoc] at h2
    have h3 : u * keep (between a b) l = (w * keep (between c a) l) * keep (between a b) l := h1.trans h2
    exact mul_right_cancel₀ (nz a b) h3
  · rw [keep_empty a b ab, mul_one] at h1
    rw [keep_empty c b bc, mul_one] at h2
    rw [keep_empty c a ac, mul_one]
    rw [keep_split b a c ab ac, ← mul_assoc] at h2
    rw [h1, h2]
  · rw [keep_empty a b ab, mul_one] at h1
    rw [keep_empty c b bc, mul_one] at h2
    rw [keep_empty a c ac, mul_one, h1, keep_split b c a bc ac, ← mul_assoc, h2]
  · rw [keep_empty a b ab, mul_one] at h1
    rw [keep_empty b c bc, mul_one] at h2
    rw [keep_empty a c (by omega), keep_empty c a ac, h1, h2, keep_empty c b (by omega), keep_empty b a (by omega)]
    ring
  · rw [keep_empty a b ab, mul_one] at h1
    rw [keep_empty b c bc, mul_one] at h2
    rw [keep_empty a c ac, mul_one, keep_split c b a bc ab, h1, h2, mul_assoc]

/-- One update of a price object. -/
theorem price_update (p : Price K) (divs : List (Dividend K)) (i : Nat) (v : Dividend K) (hi : p.div = some i)
    (hv : divs[i]? = some v) (hl : ∀ q ∈ v.pairs, q.2 ≠ 1) (eval : DT) :
    ∃ p', p.update divs eval = .ok p' ∧ p'.at_ = eval ∧ p'.div = p.div ∧
      Equivalent v.pairs p.value p.at_ p'.value eval := by
  unfold Price.update
  rw [hi]
  simp only [hv]
  by_cases h : p.at_.instant < eval.instant
  · rw [if_pos h, deduct_eq]
    refine ⟨_, rfl, rfl, rfl, ?_⟩
    unfold Equivalent
    rw [keep_empty eval p.at_ (by omega), mul_one]
  · rw [if_neg h, restore_eq _ _ _ _ hl, Res.bind_ok]
    refine ⟨_, rfl, rfl, rfl, ?_⟩
    unfold Equivalent
    rw [keep_empty p.at_ eval (by omega), mul_one]
    simp only
    rw [div_mul_cancel₀ _ (keep_ne_zero _ _ hl)]

/-- The prices of a world refer to existing dividends. -/
def World.Wf (w : World K) : Prop := ∀ p ∈ w.prices, ∀ i, p.div = some i → ∃ v, w.divs[i]? = some v

/-- The dividend pairs behind a price (none: no dividends). -/
def pairsOf (w : World K) (p : Price K) : List (DT × K) :=
  match p.div with
  | none => []
  | some i => match w.divs[i]? with
    | none => []
    | some v => v.1.pairs

theorem update_pairs (v v' : Dividend K) (eval : DT) (h : v.update eval = .ok v') : v'.pairs = v.pairs := by
  unfold Dividend.update at h
  obtain ⟨k, -, h⟩ := (bind_ok_iff _ _ _).1 h
  obtain ⟨it, -, h⟩ := (bind_ok_iff _ _ _).1 h
  cases h
  rfl

theorem setDate_ok (w w' : World K) (d : DT) (h : w.setDate d = .ok w') :
    w'.date = d ∧ w'.prices.length = w.prices.length ∧
    (∀ (j : Nat) p p', w.prices[j]? = some p → w'.prices[j]? = some p' → p.update (w.divs.map Prod.fst) d = .ok p') ∧
    w'.divs.length = w.divs.length ∧
    (∀ (i : Nat) v v', w.divs[i]? = some v → w'.divs[i]? = some v' → v'.1.pairs = v.1.pairs) := by
  unfold World.setDate at h
  obtain ⟨ps, h1, h⟩ := (bind_ok_iff _ _ _).1 h
  obtain ⟨ds, h2, h⟩ := (bind_ok_iff _ _ _).1 h
  cases h
  obtain ⟨a1, a2⟩ := (mapRes_iff _ _ _).1 h1
  obtain ⟨b1, b2⟩ := (mapRes_iff _ _ _).1 h2
  refine ⟨rfl, a1, a2, b1, ?_⟩
  intro i v v' hv hv'
  have := b2 i v v' hv hv'
  by_cases hb : v.2 = true
  · rw [if_pos hb] at this
    obtain ⟨x, hx, e⟩ := (bind_ok_iff _ _ _).1 this
    cases e
    exact update_pairs _ _ _ hx
  · rw [if_neg hb] at this
    cases this
    rfl

/-- C47 (one chain). After any chain of evaluation-date moves, each price with dividends equals the original price
adjusted for exactly the dividends between the original and the final date, whatever the dates in between; prices
without dividends are untouched. -/
theorem C47_chain (w w' : World K) (ds : List DT) (h : w.moves ds = .ok w') (hne : ds ≠ []) (j : Nat) (p p' : Price K)
    (hp : w.prices[j]? = some p) (hp' : w'.prices[j]? = some p') (hl : ∀ q ∈ pairsOf w p, q.2 ≠ 1) :
    (p.div = none → p' = p) ∧
    (p.div ≠ none → some p'.at_ = ds.getLast? ∧ Equivalent (pairsOf w p) p.value p.at_ p'.value p'.at_) := by
  induction ds generalizing w p with
  | nil => exact absurd rfl hne
  | cons d ds ih =>
    unfold World.moves at h
    obtain ⟨w1, h1, h2⟩ := (bind_ok_iff _ _ _).1 h
    obtain ⟨c1, c2, c3, c4, c5⟩ := setDate_ok w w1 d h1
    have hj : j < w.prices.length := (List.getElem?_eq_some_iff.1 hp).1
    have hg : w1.prices[j]? = some (w1.prices[j]'(by omega)) := List.getElem?_eq_getElem (by omega)
    generalize w1.prices[j]'(by omega) = p1 at hg
    have hu := c3 j p p1 hp hg
    cases hd : p.div with
    | none =>
      have e : p1 = p := by
        unfold Price.update at hu
        rw [hd] at hu
        simp only at hu
        injection hu with hu
        exact hu.symm
      subst e
      refine ⟨fun _ => ?_, fun h => absurd rfl h⟩
      cases ds with
      | nil =>
        unfold World.moves at h2
        cases h2
        rw [hg] at hp'
        exact (Option.some.inj hp').symm
      | cons d' ds' =>
        exact (ih w1 h2 (by simp) p1 hg (by unfold pairsOf; rw [hd]; simp)).1 hd
    | some i =>
      refine ⟨fun h => (by cases h), fun _ => ?_⟩
      cases hv : w.divs[i]? with
      | none =>
        unfold Price.update at hu
        rw [hd] at hu
        simp [List.getElem?_map, hv] at hu
      | some v =>
        have hpairs : pairsOf w p = v.1.pairs := by unfold pairsOf; rw [hd]; simp only [hv]
        rw [hpairs] at hl ⊢
        obtain ⟨p2, e1, e2, e3, e4⟩ := price_update p (w.divs.map Prod.fst) i v.1 hd (by rw [List.getElem?_map, hv]; rfl) hl d
        rw [hu] at e1
        cases e1
        have hi : i < w.divs.length := (List.getElem?_eq_some_iff.1 hv).1
        have hg1 : w1.divs[i]? = some (w1.divs[i]'(by omega)) := List.getElem?_eq_getElem (by omega)
        have hpp := c5 i v _ hv hg1
        have hpairs1 : pairsOf w1 p1 = v.1.pairs := by
          unfold pairsOf
          rw [e3, hd]
          simp only [hg1]
          exact hpp
        cases ds with
        | nil =>
          unfold World.moves at h2
          cases h2
          rw [hg] at hp'
          cases hp'
          rw [e2]
          exact ⟨rfl, e4⟩
        | cons d' ds' =>
          obtain ⟨q1, q2⟩ := (ih w1 h2 (by simp) p1 hg (by rw [hpairs1]; exact hl)).2 (by rw [e3, hd]; simp)
          rw [hpairs1, e2] at q2
          refine ⟨by rw [q1]; rfl, equivalent_trans _ hl e4 q2⟩

/-- C47. Returning to the date the price was quoted at restores it exactly. -/
theorem C47_round_trip (w w' : World K) (ds : List DT) (h : w.moves ds = .ok w') (j : Nat) (p p' : Price K)
    (hp : w.prices[j]? = some p) (hp' : w'.prices[j]? = some p') (hl : ∀ q ∈ pairsOf w p, q.2 ≠ 1)
    (hback : ds.getLast? = some p.at_) : p'.value = p.value := by
  have hne : ds ≠ [] := by rintro rfl; simp at hback
  obtain ⟨h1, h2⟩ := C47_chain w w' ds h hne j p p' hp hp' hl
  cases hd : p.div with
  | none => rw [h1 hd]
  | some i =>
    obtain ⟨q1, q2⟩ := h2 (by rw [hd]; simp)
    rw [hback] at q1
    have q1 : p'.at_ = p.at_ := Option.some.inj q1
    unfold Equivalent at q2
    rw [q1, keep_empty _ _ (le_refl _), mul_one, mul_one] at q2
    exact q2.symm

/-- C47. Two chains ending on the same date give the same price. -/
theorem C47_path_independent (w w1 w2 : World K) (ds1 ds2 : List DT) (h1 : w.moves ds1 = .ok w1)
    (h2 : w.moves ds2 = .ok w2) (hne : ds1 ≠ []) (hlast : ds1.getLast? = ds2.getLast?) (j : Nat) (p p1 p2 : Price K)
    (hp : w.prices[j]? = some p) (hp1 : w1.prices[j]? = some p1) (hp2 : w2.prices[j]? = some p2)
    (hl : ∀ q ∈ pairsOf w p, q.2 ≠ 1) : p1.value = p2.value := by
  have hne2 : ds2 ≠ [] := by
    rintro rfl
    rw [List.getLast?_nil, List.getLast?_eq_none_iff] at hlast
    exact hne hlast
  obtain ⟨a1, a2⟩ := C47_chain w w1 ds1 h1 hne j p p1 hp hp1 hl
  obtain ⟨b1, b2⟩ := C47_chain w w2 ds2 h2 hne2 j p p2 hp hp2 hl
  cases hd : p.div with
  | none => rw [a1 hd, b1 hd]
  | some i =>
    obtain ⟨q1, q2⟩ := a2 (by rw [hd]; simp)
    obtain ⟨r1, r2⟩ := b2 (by rw [hd]; simp)
    have e : p1.at_ = p2.at_ := Option.some.inj (by rw [q1, r1, hlast])
    rw [← e] at r2
    unfold Equivalent at q2 r2
    rw [q2] at r2
    exact mul_right_cancel₀ (keep_ne_zero _ _ hl) r2

/-- C47 (when a move succeeds). With well-formed references and no yield of 100 %, a move fails only because a
registered dividend object has all its ex-dates before the new date (and then it panics). -/
theorem C47_move_succeeds (w : World K) (hw : World.Wf w) (d : DT)
    (hl : ∀ p ∈ w.prices, ∀ q ∈ pairsOf w p, q.2 ≠ 1)
    (hdv : ∀ v ∈ w.divs, v.2 = true → v.1.dates.length = v.1.yields.length ∧ v.1.dates ≠ [] ∧ DivOrdered v.1.dates) :
    (∃ w', w.setDate d = .ok w') ↔ ∀ v ∈ w.divs, v.2 = true → ∃ x ∈ v.1.dates, d.instant ≤ x.instant := by
  have hps : ∃ ps, mapRes (fun p => Price.update p (w.divs.map Prod.fst) d) w.prices = .ok ps := by
    have : ∀ l : List (Price K), (∀ p ∈ l, p ∈ w.prices) →
        ∃ ps, mapRes (fun p => Price.update p (w.divs.map Prod.fst) d) l = .ok ps := by
      intro l
      induction l with
      | nil => exact fun _ => ⟨[], rfl⟩
      | cons p l ih =>
        intro hm
        obtain ⟨ps, e⟩ := ih fun q hq => hm q (List.mem_cons_of_mem _ hq)
        have hp := hm p (by simp)
        have : ∃ p', p.update (w.divs.map Prod.fst) d = .ok p' := by
          cases hd : p.div with
          | none => exact ⟨p, by unfold Price.update; rw [hd]⟩
          | some i =>
            obtain ⟨v, hv⟩ := hw p hp i hd
            have hll := hl p hp
            unfold pairsOf at hll
            rw [hd] at hll
            simp only [hv] at hll
            obtain ⟨p', e, -⟩ := price_update p (w.divs.map Prod.fst) i v.1 hd (by rw [List.getElem?_map, hv]; rfl) hll d
            exact ⟨p', e⟩
        obtain ⟨p', e'⟩ := this
        exact ⟨p' :: ps, by simp [mapRes, e', e]⟩
    exact this w.prices fun p hp => hp
  obtain ⟨ps, hps⟩ := hps
  have hds : ∀ l : List (Dividend K × Bool), (∀ v ∈ l, v ∈ w.divs) →
      ((∃ ds, mapRes (fun v : Dividend K × Bool => if v.2 then (do let x ← Dividend.update v.1 d; .ok (x, true)) else .ok v) l
        = .ok ds) ↔ ∀ v ∈ l, v.2 = true → ∃ x ∈ v.1.dates, d.instant ≤ x.instant) := by
    intro l
    induction l with
    | nil => exact fun _ => ⟨fun _ v hv => absurd hv (by simp), fun _ => ⟨[], rfl⟩⟩
    | cons v l ih =>
      intro hm
      have ih' := ih fun q hq => hm q (List.mem_cons_of_mem _ hq)
      have hone : (∃ x, (if v.2 then (do let x ← Dividend.update v.1 d; .ok (x, true)) else .ok v : Res (Dividend K × Bool)) = .ok x) ↔
          (v.2 = true → ∃ x ∈ v.1.dates, d.instant ≤ x.instant) := by
        by_cases hb : v.2 = true
        · obtain ⟨g1, g2, g3⟩ := hdv v (hm v (by simp)) hb
          obtain ⟨u1, u2⟩ := C48_update v.1 g1 g2 g3 d
          constructor
          · rintro ⟨x, hx⟩ _
            by_contra hno
            push Not at hno
            rw [if_pos hb, u2 hno] at hx
            cases hx
          · intro h
            obtain ⟨v', e, -⟩ := u1 (h hb)
            rw [if_pos hb, e]
            exact ⟨_, rfl⟩
        · rw [if_neg hb]
          exact ⟨fun _ h => absurd h hb, fun _ => ⟨v, rfl⟩⟩
      constructor
      · rintro ⟨ds, h⟩
        unfold mapRes at h
        obtain ⟨x, hx, h⟩ := (bind_ok_iff _ _ _).1 h
        obtain ⟨xs, hxs, h⟩ := (bind_ok_iff _ _ _).1 h
        intro q hq
        rcases List.mem_cons.1 hq with rfl | hq
        · exact hone.1 ⟨x, hx⟩
        · exact ih'.1 ⟨xs, hxs⟩ q hq
      · intro h
        obtain ⟨x, hx⟩ := hone.2 (h v (by simp))
        obtain ⟨xs, hxs⟩ := ih'.2 fun q hq => h q (List.mem_cons_of_mem _ hq)
        exact ⟨x :: xs, by simp only [mapRes]; rw [hx, Res.bind_ok, hxs, Res.bind_ok]⟩
  rw [← hds w.divs fun v hv => hv]
  unfold World.setDate
  rw [hps, Res.bind_ok]
  constructor
  · rintro ⟨w', h⟩
    obtain ⟨ds, h1, -⟩ := (bind_ok_iff _ _ _).1 h
    exact ⟨ds, h1⟩
  · rintro ⟨ds, h⟩
    rw [h]
    exact ⟨_, rfl⟩

/-! ## Concrete cases and limits -/

/-- Two dividends of 1 and 2 on a spot of 100. -/
def twoDividends : Dividend ℚ :=
  { dates := [utc 2024 3 15, utc 2024 6 14], amounts := [1, 2], yields := [1 / 100, 2 / 100], spot := 100,
    interp := .const 1 }

def someWorld (observed : Bool) : World ℚ :=
  { date := utc 2024 1 2, prices := [⟨100, utc 2024 1 2, some 0⟩], divs := [(twoDividends, observed)] }

example : DivOrdered twoDividends.dates := by
  unfold DivOrdered twoDividends utc
  decide +kernel

example : (∀ q ∈ pairsOf (someWorld true) ⟨100, utc 2024 1 2, some 0⟩, q.2 ≠ 1) := by
  decide +kernel

/-- Forward past the first dividend and back. -/
example : ((someWorld true).moves [utc 2024 4 1, utc 2024 2 1]).map (fun w => w.prices.map Price.value) = .ok [100] ∧
    ((someWorld true).moves [utc 2024 4 1]).map (fun w => w.prices.map Price.value) = .ok [99] := by
  decide +kernel

/-- Moving the evaluation date past the last ex-dividend date panics once the dividend is registered. -/
theorem fault_all_dividends_past :
    ((someWorld true).setDate (utc 2024 7 1)).map World.date = .error .index ∧
    (Dividend.new (utc 2024 7 1) (some [utc 2024 3 15, utc 2024 6 14]) [(1 : ℚ), 2] 100).map Dividend.spot
      = .error .index := by
  decide +kernel

/-- A bump brings past dividends back into the ratio: at 2024-04-01 the deduction to 2024-05-01 is 1 before and 99 %
after a bump by zero. -/
theorem fault_bump_revives_past :
    (do let v ← twoDividends.update (utc 2024 4 1); v.ratio (utc 2024 5 1)) = .ok (1 : ℚ) ∧
    (do let v ← twoDividends.update (utc 2024 4 1); let v ← v.bump none none 0; v.ratio (utc 2024 5 1))
      = .ok (99 / 100 : ℚ) := by
  decide +kernel

/-- A dividend of 100 % destroys the price for good: the way back divides by zero. -/
theorem fault_full_dividend :
    ((World.mk (utc 2024 1 2) [⟨(100 : ℚ), utc 2024 1 2, some 0⟩]
      [({ twoDividends with yields := [1, 0] }, false)]).moves [utc 2024 4 1, utc 2024 1 2]).map World.date
      = .error .nonfinite := by
  decide +kernel

end Verif.Props
