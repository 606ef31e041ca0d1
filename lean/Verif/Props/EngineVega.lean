import Verif.Props.EngineBuckets
/-!
# C93: vega by tenor
-/
set_option autoImplicit false
namespace Verif.Props
open Verif Verif.QL Verif.Civil

/-! ## Shifts in steps -/

theorem volShifted_congr (u : String) (w w' : ℝ → ℝ → Prop) (b : ℝ) (m m' : Mkt) (s0 : Surf) (hs0 : m.vols u = some (.surface s0))
    (hw : ∀ t ∈ s0.times, ∀ x ∈ s0.mon, (w t x ↔ w' t x)) (h : VolShifted u w b m m') : VolShifted u w' b m m' := by
  obtain ⟨s, s', env, a1, a2, a3, a4, a5, a6, a7⟩ := h
  rw [hs0] at a1
  obtain rfl := Vol.surface.inj (Option.some.inj a1)
  refine ⟨s0, s', env, hs0, a2, a3, a4, a5, fun i j t x v h1 h2 h3 => ?_, a7⟩
  rw [a6 i j t x v h1 h2 h3]
  have := hw t (List.mem_of_getElem? h1) x (List.mem_of_getElem? h2)
  by_cases hc : w t x
  · rw [if_pos hc, if_pos (this.1 hc)]
  · rw [if_neg hc, if_neg fun q => hc (this.2 q)]

/-- Nothing shifted. -/
theorem volShifted_none (u : String) (b : ℝ) (m : Mkt) (hm : GoodVols m) (s : Surf) (hs : m.vols u = some (.surface s)) (w : ℝ → ℝ → Prop)
    (hw : ∀ t ∈ s.times, ∀ x ∈ s.mon, ¬ w t x) : VolShifted u w b m m := by
  obtain ⟨s', env, fs, e, he, h1, h2, -⟩ := hm u _ hs
  obtain rfl := Vol.surface.inj e
  refine ⟨s, s, env, hs, he, h1, h2, rfl, fun i j t x v a1 a2 a3 => ?_, ?_⟩
  · rw [a3, if_neg (hw t (List.mem_of_getElem? a1) x (List.mem_of_getElem? a2))]
  · rw [put_same _ _ _ hs]

/-- One more window shifted. -/
theorem volShifted_step (u : String) (b : ℝ) (M m m' : Mkt) (s0 : Surf) (hs0 : M.vols u = some (.surface s0)) (hg : GoodVols m) (w w' : ℝ → ℝ → Prop)
    (t1 t2 x1 x2 : Option ℝ) (h : VolShifted u w b M m) (hb : m.bumpVol u t1 t2 x1 x2 b = .ok m')
    (hw : ∀ t ∈ s0.times, ∀ x ∈ s0.mon, (w' t x ↔ w t x ∨ (InWindow t1 t2 t ∧ InWindow x1 x2 x)) ∧ ¬ (w t x ∧ InWindow t1 t2 t ∧ InWindow x1 x2 x)) :
    VolShifted u w' b M m' ∧ GoodVols m' := by
  obtain ⟨g1, -, g3⟩ := bumpVol_spec m m' hg u t1 t2 x1 x2 b hb
  refine ⟨?_, g3⟩
  obtain ⟨s, s1, env, a1, a2, a3, a4, a5, a6, rfl⟩ := h
  obtain ⟨s1', s2, env', b1, b2, b3, b4, b5, b6, rfl⟩ := g1
  simp only [put_self] at b1
  obtain rfl := Vol.surface.inj (Option.some.inj b1)
  rw [env_vols, a2] at b2
  obtain rfl := Except.ok.inj b2
  rw [hs0] at a1
  obtain rfl := Vol.surface.inj (Option.some.inj a1)
  refine ⟨s0, s2, env, hs0, a2, b3, b4, ?_, fun i j t x v h1 h2 h3 => ?_, ?_⟩
  · rw [b5, a5]
  · have c1 := a6 i j t x v h1 h2 h3
    have c2 := b6 i j t x _ (by rw [a5]; exact h1) (by rw [a5]; exact h2) c1
    rw [c2]
    obtain ⟨q1, q2⟩ := hw t (List.mem_of_getElem? h1) x (List.mem_of_getElem? h2)
    by_cases hc : w t x
    · rw [if_pos hc, if_neg fun q => q2 ⟨hc, q⟩, if_pos (q1.2 (Or.inl hc))]
    · rw [if_neg hc]
      by_cases hd : InWindow t1 t2 t ∧ InWindow x1 x2 x
      · rw [if_pos hd, if_pos (q1.2 (Or.inr hd))]
      · rw [if_neg hd, if_neg fun q => (q1.1 q).elim hc hd]
  · simp only [put_put]

/-- Everything shifted is put back by the opposite bump. -/
theorem volShifted_back (u : String) (b : ℝ) (M m m' : Mkt) (s0 : Surf) (hs0 : M.vols u = some (.surface s0)) (hM : GoodVols M) (w : ℝ → ℝ → Prop)
    (h : VolShifted u w b M m) (hw : ∀ t ∈ s0.times, ∀ x ∈ s0.mon, w t x) (hb : m.bumpVol u none none none none (-b) = .ok m') : m' = M := by
  obtain ⟨k, hk⟩ := bumpVol_ok M hM u none none none none b _ hs0
  obtain ⟨k1, k2, -⟩ := bumpVol_spec M k hM u none none none none b hk
  have : m = k := volShifted_unique u (fun _ _ => True) b M m k hM (volShifted_congr u _ _ b M m s0 hs0 (fun t ht x hx => ⟨fun _ => trivial, fun _ => hw t ht x hx⟩) h)
    (volShifted_all u b M k k1)
  rw [this, k2] at hb
  exact (Except.ok.inj hb).symm

/-! ## The windows from a tenor on -/

/-- Specification: the time `t` is after the tenor before `k`. -/
def FromTenor (times : List ℝ) (k : Nat) (t : ℝ) : Prop := ∀ s, 0 < k → times[k - 1]? = some s → s + 1e-4 < t

theorem fromTenor_zero (times : List ℝ) (t : ℝ) : FromTenor times 0 t := fun _ h => absurd h (lt_irrefl _)

theorem fromTenor_last (times : List ℝ) (hs : times.Pairwise (· < ·)) (t : ℝ) (ht : t ∈ times) : ¬ FromTenor times times.length t := by
  intro h
  obtain ⟨i, hi, rfl⟩ := List.getElem_of_mem ht
  have := h _ (by omega) (List.getElem?_eq_getElem (by omega : times.length - 1 < times.length))
  rcases Nat.lt_or_ge i (times.length - 1) with hlt | hge
  · have := List.pairwise_iff_getElem.1 hs i (times.length - 1) hi (by omega) hlt
    linarith
  · obtain rfl : i = times.length - 1 := by omega
    linarith

theorem window_start (times : List ℝ) (k : Nat) (hi : Option ℝ) (t : ℝ) : InWindow (startOf times k) hi t ↔ FromTenor times k t ∧ ∀ z, hi = some z → t ≤ z + 1e-4 := by
  unfold InWindow FromTenor startOf
  refine and_congr ?_ Iff.rfl
  by_cases h0 : k = 0
  · subst h0; simp
  · rw [if_neg h0]
    exact ⟨fun h s _ e => h s e, fun h s e => h s (by omega) e⟩

theorem fromTenor_step (times : List ℝ) (hs : times.Pairwise (· < ·)) (k : Nat) (hk : k < times.length) (t : ℝ) :
    (FromTenor times k t ↔ FromTenor times (k + 1) t ∨ InWindow (startOf times k) times[k]? t) ∧ ¬ (FromTenor times (k + 1) t ∧ InWindow (startOf times k) times[k]? t) := by
  rw [window_start, List.getElem?_eq_getElem hk]
  have hsucc : FromTenor times (k + 1) t ↔ times[k] + 1e-4 < t := by
    unfold FromTenor
    rw [show k + 1 - 1 = k from rfl, List.getElem?_eq_getElem hk]
    simp
  rw [hsucc]
  simp only [Option.some.injEq, forall_eq']
  refine ⟨⟨fun h => ?_, ?_⟩, fun h => ?_⟩
  · rcases le_or_gt t (times[k] + 1e-4) with q | q
    · exact Or.inr ⟨h, q⟩
    · exact Or.inl q
  · rintro (h | h)
    · intro s h0 hs'
      obtain ⟨h1, rfl⟩ := List.getElem?_eq_some_iff.1 hs'
      have := List.pairwise_iff_getElem.1 hs (k - 1) k h1 hk (by omega)
      linarith
    · exact h.1
  · linarith [h.1, h.2.2]

/-! ## The loop -/

/-- Specification: the tenor before `k` lies after the time `T`. -/
def TenorBeyond (times : List ℝ) (T : ℝ) (k : Nat) : Prop := 0 < k ∧ ∃ s, times[k - 1]? = some s ∧ T < s

theorem beyond_iff (times : List ℝ) (T : ℝ) (k : Nat) : beyond T (startOf times k) = true ↔ TenorBeyond times T k := by
  unfold beyond startOf TenorBeyond
  by_cases h0 : k = 0
  · subst h0; simp
  · rw [if_neg h0]
    have : 0 < k := by omega
    cases h : times[k - 1]? with
    | none => simp
    | some s => simp [this]

theorem vegaSLoop_spec (g : EngCfg) (hg : OwnCodes g) (u : String) (act : List Instr) (ha : Among g act) (times : List ℝ) (T : ℝ) (M : Mkt)
    (s0 : Surf) (hs0 : M.vols u = some (.surface s0)) (_hgrid : s0.times = times) (hsort : times.Pairwise (· < ·)) :
    ∀ (n : Nat) (m : Mkt) (prev : Map String ℝ) (t : Map String (List ℝ)) (r : Results) (m' : Mkt) (r' : Results), n ≤ times.length →
    VolShifted u (fun t _ => FromTenor times n t) g.conf.vegaSBump M m → GoodVols m →
    vegaSLoop g u act times T n m prev t r = .ok (m', r') →
    VolShifted u (fun t _ => FromTenor times 0 t) g.conf.vegaSBump M m' ∧ (∀ c, c ∉ act.map Instr.code → r' c = r c) ∧
    ∀ i ∈ act, ∀ z0 L x, prev i.code = some z0 → t i.code = some L → r i.code = some x → L.length = times.length →
      ∃ z : Nat → ℝ, z n = z0 ∧
        (∀ k, k < n → TenorBeyond times T k → z k = z (k + 1)) ∧
        (∀ k, k < n → ¬ TenorBeyond times T k → g.conf.vegaSBump ≠ 0 ∧ ∃ m, VolShifted u (fun t _ => FromTenor times k t) g.conf.vegaSBump M m ∧ g.npv i m = .ok (z k)) ∧
        ∃ L', L'.length = times.length ∧ (∀ (k : Nat), n ≤ k ∨ TenorBeyond times T k → L'[k]? = L[k]?) ∧
          (∀ (k : Nat), k < n → ¬ TenorBeyond times T k → L'[k]? = some ((z k - z (k + 1)) / g.conf.vegaSBump * 0.01 * i.notional)) ∧
          r' i.code = some (if n = 0 then x else { x with vegaS := x.vegaS.put u L' }) := by
  intro n
  induction n with
  | zero =>
    intro m prev t r m' r' _ hm _ h
    obtain ⟨rfl, rfl⟩ := Prod.mk.inj (Except.ok.inj h)
    refine ⟨hm, fun _ _ => rfl, fun i _ z0 L x _ _ hx hl => ⟨fun _ => z0, rfl, fun _ hk => absurd hk (by omega), fun _ hk => absurd hk (by omega), L, hl, fun _ _ => rfl,
      fun _ hk => absurd hk (by omega), by rw [if_pos rfl]; exact hx⟩⟩
  | succ n ih =>
    intro m prev t r m' r' hn hm hgm h
    unfold vegaSLoop at h
    obtain ⟨m1, h1, h⟩ := (bind_ok_iff _ _ _).1 h
    obtain ⟨q1, q2⟩ := volShifted_step u _ M m m1 s0 hs0 hgm _ (fun t _ => FromTenor times n t) _ _ _ _ hm h1 fun t _ x _ => by
      have hx : InWindow none none x := ⟨by simp, by simp⟩
      obtain ⟨w1, w2⟩ := fromTenor_step times hsort n (by omega) t
      exact ⟨by rw [w1]; simp [hx], fun hc => w2 ⟨hc.1, hc.2.1⟩⟩
    have hne0 : ¬ TenorBeyond times T 0 := fun hc => absurd hc.1 (lt_irrefl _)
    by_cases hb : beyond T (startOf times n) = true
    · rw [if_pos hb] at h
      have hbn := (beyond_iff _ _ _).1 hb
      obtain ⟨p1, p2, p3⟩ := ih m1 prev t r m' r' (by omega) q1 q2 h
      refine ⟨p1, p2, fun i hi z0 L x hz hL hx hl => ?_⟩
      obtain ⟨z, e1, e2, e3, L', e4, e5, e6, e7⟩ := p3 i hi z0 L x hz hL hx hl
      have hup : ∀ k, k ≤ n → Function.update z (n + 1) z0 k = z k := fun k hk => Function.update_of_ne (by omega) _ _
      refine ⟨Function.update z (n + 1) z0, Function.update_self _ _ _, fun k hk hc => ?_, fun k hk hc => ?_, L', e4, fun k hk => ?_, fun k hk hc => ?_, ?_⟩
      · by_cases hkn : k = n
        · subst hkn
          rw [Function.update_self, hup k (le_refl _), e1]
        · rw [hup k (by omega), hup (k + 1) (by omega), e2 k (by omega) hc]
      · have hkn : k ≠ n := fun hkn => hc (hkn ▸ hbn)
        rw [hup k (by omega)]
        exact e3 k (by omega) hc
      · rcases hk with hk | hk
        · exact e5 k (Or.inl (by omega))
        · exact e5 k (Or.inr hk)
      · have hkn : k ≠ n := fun hkn => hc (hkn ▸ hbn)
        rw [hup k (by omega), hup (k + 1) (by omega)]
        exact e6 k (by omega) hc
      · rw [e7, if_neg (Nat.succ_ne_zero n), if_neg (fun h0 : n = 0 => hne0 (h0 ▸ hbn))]
    · rw [if_neg hb] at h
      have hbn : ¬ TenorBeyond times T n := fun hc => hb ((beyond_iff _ _ _).2 hc)
      obtain ⟨ups, h2, h⟩ := (bind_ok_iff _ _ _).1 h
      obtain ⟨t1, h3, h⟩ := (bind_ok_iff _ _ _).1 h
      obtain ⟨r1, h4, h⟩ := (bind_ok_iff _ _ _).1 h
      obtain ⟨n1, -⟩ := getNpvs_spec g hg _ _ _ _ ha h2
      obtain ⟨s1, -⟩ := tableLoop_spec g hg (fun l v => l.set n v) (fun l v => by simp only [List.set_set]) ups _ _ _ act t t1 ha h3
      obtain ⟨w1, w2⟩ := writeTables_spec (fun (x : EResult) v => { x with vegaS := x.vegaS.put u v }) (fun x v w => by simp only [put_put]) t1 _ _ _ h4
      obtain ⟨p1, p2, p3⟩ := ih m1 ups t1 r1 m' r' (by omega) q1 q2 h
      refine ⟨p1, fun c hc => (p2 c hc).trans (w2 c hc), fun i hi z0 L x hz hL hx hl => ?_⟩
      obtain ⟨up, v, L0, a1, a2, a3, a4, a5⟩ := s1 i hi
      rw [hL] at a4
      obtain rfl := Option.some.inj a4
      rw [orErr_eq, hz] at a2
      obtain rfl := Option.some.inj a2
      obtain ⟨up', b1, b2⟩ := n1 i hi
      rw [a1] at b2
      obtain rfl := Option.some.inj b2
      obtain ⟨v', x', c1, c2, c3⟩ := w1 i.code (List.mem_map_of_mem hi)
      rw [a5] at c1
      obtain rfl := Option.some.inj c1
      rw [hx] at c2
      obtain rfl := Option.some.inj c2
      obtain ⟨z, e1, e2, e3, L', e4, e5, e6, e7⟩ := p3 i hi up _ _ a1 a5 c3 (by simpa using hl)
      have hup : ∀ k, k ≤ n → Function.update z (n + 1) z0 k = z k := fun k hk => Function.update_of_ne (by omega) _ _
      have hnset : L'[n]? = some ((up - z0) / g.conf.vegaSBump * 0.01 * i.notional) := by
        rw [e5 n (Or.inl (le_refl _)), List.getElem?_set_self (by omega)]
      refine ⟨Function.update z (n + 1) z0, Function.update_self _ _ _, fun k hk hc => ?_, fun k hk hc => ?_, L', e4, fun k hk => ?_, fun k hk hc => ?_, ?_⟩
      · have hkn : k ≠ n := fun hkn => hbn (hkn ▸ hc)
        rw [hup k (by omega), hup (k + 1) (by omega), e2 k (by omega) hc]
      · by_cases hkn : k = n
        · subst hkn
          rw [hup k (le_refl _), e1]
          exact ⟨a3, m1, q1, b1⟩
        · rw [hup k (by omega)]
          exact e3 k (by omega) hc
      · have hkn : k ≠ n := by
          rintro rfl
          rcases hk with hk | hk
          · omega
          · exact hbn hk
        rw [e5 k (hk.imp_left fun h => by omega), List.getElem?_set_ne (Ne.symm hkn)]
      · by_cases hkn : k = n
        · subst hkn
          rw [hnset, hup k (le_refl _), e1, Function.update_self]
        · rw [hup k (by omega), hup (k + 1) (by omega)]
          exact e6 k (by omega) hc
      · rw [e7, if_neg (Nat.succ_ne_zero n)]
        by_cases h0 : n = 0
        · subst h0
          rw [if_pos rfl]
          have : L' = L.set 0 ((up - z0) / g.conf.vegaSBump * 0.01 * i.notional) := List.ext_getElem? fun k => e5 k (Or.inl (Nat.zero_le _))
          rw [this]
        · rw [if_neg h0]
          simp only [put_put]

theorem baseNpvs_spec (g : EngCfg) (hg : OwnCodes g) (r : Results) : ∀ (act : List Instr) (acc m : Map String ℝ), Among g act → baseNpvs r act acc = .ok m →
    (∀ i ∈ act, ∃ v, baseNpv r i.code = .ok v ∧ m i.code = some v) ∧ ∀ c, c ∉ act.map Instr.code → m c = acc c := by
  intro act
  induction act with
  | nil =>
    intro acc m _ h
    obtain rfl := Except.ok.inj h
    exact ⟨by simp, fun _ _ => rfl⟩
  | cons i l ih =>
    intro acc m ha h
    unfold baseNpvs at h
    obtain ⟨v, hv, h⟩ := (bind_ok_iff _ _ _).1 h
    obtain ⟨h1, h2⟩ := ih _ _ (fun j hj => ha j (List.mem_cons_of_mem _ hj)) h
    refine ⟨fun j hj => ?_, fun c hc => ?_⟩
    · by_cases hm : j.code ∈ l.map Instr.code
      · obtain ⟨k, hk, e⟩ := List.mem_map.1 hm
        obtain rfl := code_unique g hg k j (ha k (List.mem_cons_of_mem _ hk)) (ha j hj) e
        exact h1 k hk
      · rcases List.mem_cons.1 hj with rfl | hj'
        · exact ⟨v, hv, by rw [h2 _ hm, put_self]⟩
        · exact absurd (List.mem_map_of_mem hj') hm
    · simp only [List.map_cons, List.mem_cons, not_or] at hc
      rw [h2 c hc.2, put_other _ _ _ _ hc.1]

theorem baseNpvs_total (r : Results) : ∀ (act : List Instr) (acc : Map String ℝ), (∀ i ∈ act, ∃ x v, r i.code = some x ∧ x.npv = some v) →
    ∃ m, baseNpvs r act acc = .ok m := by
  intro act
  induction act with
  | nil => exact fun acc _ => ⟨acc, rfl⟩
  | cons i l ih =>
    intro acc h
    obtain ⟨x, v, hx, hv⟩ := h i (by simp)
    unfold baseNpvs
    rw [(baseNpv_ok r i.code v.npv).2 ⟨x, v, hx, hv, rfl⟩, Res.bind_ok]
    exact ih _ fun j hj => h j (List.mem_cons_of_mem _ hj)

/-- Specification: the time by which the instruments `P` are done: that of the latest maturity, or 100 million years if one of them has none. -/
def DoneBy (eval : DT) (P : Instr → Prop) (T : ℝ) : Prop :=
  (∃ i m, P i ∧ i.maturity = some m ∧ (∀ j, P j → ∃ n, j.maturity = some n ∧ n.instant ≤ m.instant) ∧ T = timeFrom eval m) ∨
  ((∃ i, P i ∧ i.maturity = none) ∧ T = 100000000)

theorem longestTime_spec (eval : DT) (l : List Instr) (hl : l ≠ []) : DoneBy eval (· ∈ l) (longestTime eval l) := by
  unfold longestTime
  cases h : longestMaturity l with
  | none =>
    rcases (C80_longest l).1.1 h with h | ⟨i, hi, hm⟩
    · exact absurd h hl
    · exact Or.inr ⟨⟨i, hi, hm⟩, rfl⟩
  | some m =>
    obtain ⟨⟨i, hi, hm⟩, h2⟩ := (C80_longest l).2 m h
    exact Or.inl ⟨i, m, hi, hm, h2, rfl⟩

/-- Specification: vega by tenors. With `z k` the npv when the volatilities from tenor `k` on are `b` higher (the plain npv from the last
tenor on and for tenors starting after `T`), the number of tenor `k` is the difference from `z (k + 1)` to `z k`. -/
def VegaByTenor (g : EngCfg) (M : Mkt) (u : String) (b T : ℝ) (times : List ℝ) (i : Instr) (npv : Option NpvResult) (y : Option (List ℝ)) : Prop :=
  ∃ (v : NpvResult) (z : Nat → ℝ), npv = some v ∧ b ≠ 0 ∧
    (∀ k, k < times.length → ¬ TenorBeyond times T k → ∃ m, VolShifted u (fun t _ => FromTenor times k t) b M m ∧ g.npv i m = .ok (z k)) ∧
    (∀ k, k ≤ times.length → k = times.length ∨ TenorBeyond times T k → z k = v.npv) ∧
    y = some ((List.range times.length).map fun k => (z k - z (k + 1)) / b * 0.01 * i.notional)

theorem vegaSRound_spec (g : EngCfg) (hg : OwnCodes g) (u : String) (times : List ℝ) (M : Mkt) (hM : GoodVols M)
    (hgrid : ∀ s, M.vols u = some (.surface s) → s.times = times) (e e' : Eng) (ha : Among g e.action) (hne : e.action ≠ []) (hm : e.mkt = M)
    (h : vegaSRound g times u e = .ok e') :
    e'.mkt = M ∧ Changed vegaSPart u e.action
      (fun i npv y => ∃ T, DoneBy M.w.date (· ∈ e.action) T ∧ VegaByTenor g M u g.conf.vegaSBump T times i npv y) e.results e'.results := by
  unfold vegaSRound at h
  obtain ⟨prev, h1, h⟩ := (bind_ok_iff _ _ _).1 h
  obtain ⟨⟨m', r'⟩, h2, h⟩ := (bind_ok_iff _ _ _).1 h
  obtain ⟨m'', h3, h⟩ := (bind_ok_iff _ _ _).1 h
  obtain rfl := Except.ok.inj h
  rw [hm] at h2
  have hpos : 0 < times.length := by
    rcases Nat.eq_zero_or_pos times.length with h0 | h0
    · rw [h0] at h2
      obtain ⟨rfl, -⟩ := Prod.mk.inj (Except.ok.inj h2)
      unfold Mkt.bumpVol at h3
      obtain ⟨v, hv, -⟩ := (bind_ok_iff _ _ _).1 h3
      rw [orErr_eq] at hv
      obtain ⟨s, _, _, rfl, -, hgood, -⟩ := hM u v hv
      have := hgood.some
      rw [hgrid s hv] at this
      exact List.length_pos_iff.2 this
    · exact h0
  -- the surface is there
  have hs : ∃ s, M.vols u = some (.surface s) := by
    cases hl : times.length with
    | zero => omega
    | succ n =>
      rw [hl] at h2
      unfold vegaSLoop at h2
      obtain ⟨m1, h2, -⟩ := (bind_ok_iff _ _ _).1 h2
      unfold Mkt.bumpVol at h2
      obtain ⟨v, hv, -⟩ := (bind_ok_iff _ _ _).1 h2
      rw [orErr_eq] at hv
      obtain ⟨s, _, _, rfl, -⟩ := hM u v hv
      exact ⟨s, hv⟩
  obtain ⟨s0, hs0⟩ := hs
  have hgr := hgrid s0 hs0
  obtain ⟨_, _, _, es, _, hgood, _⟩ := hM u _ hs0
  obtain rfl := Vol.surface.inj es
  have hsort : times.Pairwise (· < ·) := hgr ▸ hgood.times
  obtain ⟨l1, l2, l3⟩ := vegaSLoop_spec g hg u e.action ha times (longestTime M.w.date e.action) M s0 hs0 hgr hsort times.length M prev _ e.results m' r' (le_refl _)
    (volShifted_none u _ M hM s0 hs0 _ fun t ht x _ => fromTenor_last times hsort t (hgr ▸ ht)) hM h2
  refine ⟨volShifted_back u _ M m' m'' s0 hs0 hM _ l1 (fun t _ _ _ => fromTenor_zero times t) h3, fun i hi => ?_, l2⟩
  obtain ⟨b1, -⟩ := baseNpvs_spec g hg e.results e.action _ _ ha h1
  obtain ⟨v0, c1, c2⟩ := b1 i hi
  obtain ⟨x, w, d1, d2, rfl⟩ := (baseNpv_ok _ _ _).1 c1
  obtain ⟨z, e1, e2, e3, L', e4, e5, e6, e7⟩ := l3 i hi w.npv _ x c2 ((zeroTables_spec (List.replicate times.length (0 : ℝ)) e.action fun _ => none).1 i hi) d1 (by simp)
  rw [if_neg (by omega)] at e7
  refine ⟨x, _, d1, e7, rfl, ⟨_, longestTime_spec _ _ hne, w, z, d2, ?_, fun k hk hb => (e3 k hk hb).2, ?_, ?_⟩, fun k hk => put_other _ _ _ _ hk⟩
  · exact (e3 0 hpos fun hc => absurd hc.1 (lt_irrefl _)).1
  · -- plain npv beyond the last maturity
    have : ∀ j k, k + j = times.length → k = times.length ∨ TenorBeyond times (longestTime M.w.date e.action) k → z k = w.npv := by
      intro j
      induction j with
      | zero =>
        intro k hk _
        obtain rfl : k = times.length := by omega
        exact e1
      | succ j ih =>
        intro k hk hb
        rcases hb with rfl | hb
        · exact e1
        · rw [e2 k (by omega) hb]
          refine ih (k + 1) (by omega) ?_
          by_cases hk1 : k + 1 = times.length
          · exact Or.inl hk1
          · refine Or.inr ⟨by omega, times[k], List.getElem?_eq_getElem (by omega), ?_⟩
            obtain ⟨hp, s, hs, hT⟩ := hb
            obtain ⟨q1, rfl⟩ := List.getElem?_eq_some_iff.1 hs
            have := List.pairwise_iff_getElem.1 hsort (k - 1) k q1 (by omega) (by omega)
            linarith
    exact fun k hk hb => this (times.length - k) k (by omega) hb
  · show (x.vegaS.put u L') u = _
    rw [put_self, Option.some.injEq]
    refine List.ext_getElem? fun k => ?_
    by_cases hk : k < times.length
    · rw [List.getElem?_map, List.getElem?_range hk, Option.map_some]
      by_cases hb : TenorBeyond times (longestTime M.w.date e.action) k
      · rw [e5 k (Or.inr hb), List.getElem?_replicate, if_pos hk, e2 k hk hb]
        simp
      · exact e6 k hk hb
    · rw [List.getElem?_eq_none (by omega), List.getElem?_eq_none (by simp; omega)]


theorem vegaS_put (n : String) : PutAt vegaSPart n (fun x v => { x with vegaS := x.vegaS.put n v }) := ⟨fun _ _ => rfl, fun _ _ => rfl⟩

/-- Specification: every surface has the tenors of the configuration as its times, as `with_market_surface` and
`with_constant_volatility` make it for the engine. -/
def TenorGrid (M : Mkt) (ds : List DT) : Prop := ∀ u s, M.vols u = some (.surface s) → s.times = ds.map (timeFrom M.w.date)

/-- **C93** (vega by tenor). Let `ds` be the tenors counted from the evaluation date, and the surfaces on these tenors. After the part the
market is what it was. Every instrument other than cash, stock and future has, for each of its underlyings, a list of one number per tenor: the
difference of its npv with the volatilities from this tenor on raised and that with the volatilities from the next tenor on raised, per
bump, for 1 % and its notional. Tenors starting after the last maturity of all such instruments of the underlying do not count. Nothing else in
the results has changed. -/
theorem C93_vega_structure (g : EngCfg) (hg : OwnCodes g) (e e' : Eng) (hM : GoodVols e.mkt) (ds : List DT)
    (hds : calcDates g.md e.mkt.w.date g.conf.vegaTenors = .ok ds) (hgrid : TenorGrid e.mkt ds) (h : setVegaS g e = .ok e') :
    e'.mkt = e.mkt ∧ (∀ c, c ∉ g.insts.map Instr.code → e'.results c = e.results c) ∧
    ∀ i ∈ g.insts, ∀ x, e.results i.code = some x → ∃ y, e'.results i.code = some y ∧ y = { x with vegaS := y.vegaS } ∧
      ∀ u, (u ∈ i.unds ∧ i.typeName ≠ "Cash" ∧ i.typeName ≠ "Stock" ∧ i.typeName ≠ "Futures" →
          ∃ T, DoneBy e.mkt.w.date (fun j => j ∈ g.insts ∧ u ∈ j.unds ∧ j.typeName ≠ "Cash" ∧ j.typeName ≠ "Stock" ∧ j.typeName ≠ "Futures") T ∧
            VegaByTenor g e.mkt u g.conf.vegaSBump T (ds.map (timeFrom e.mkt.w.date)) i x.npv (y.vegaS u)) ∧
        (¬ (u ∈ i.unds ∧ i.typeName ≠ "Cash" ∧ i.typeName ≠ "Stock" ∧ i.typeName ≠ "Futures") → y.vegaS u = x.vegaS u) := by
  unfold setVegaS at h
  rw [hds, Res.bind_ok] at h
  have hexc : ∀ i : Instr, i.typeName ∉ ["Cash", "Stock", "Futures"] ↔ i.typeName ≠ "Cash" ∧ i.typeName ≠ "Stock" ∧ i.typeName ≠ "Futures" := fun i => by simp
  have hmem : ∀ u ∈ allUnds g.insts, ∀ act, (Except.ok (withUnderlying g.insts u ["Cash", "Stock", "Futures"]) : Res (List Instr)) = .ok act → ∀ i,
      i ∈ act ↔ i ∈ g.insts ∧ (u ∈ i.unds ∧ i.typeName ≠ "Cash" ∧ i.typeName ≠ "Stock" ∧ i.typeName ≠ "Futures") := fun n _ act hact i => by
    obtain rfl := Except.ok.inj hact
    rw [withUnderlying_mem, hexc]
  obtain ⟨h1, h2, h3⟩ := eachName_spec vegaSPart g hg e.mkt _ _ (fun u i => u ∈ i.unds ∧ i.typeName ≠ "Cash" ∧ i.typeName ≠ "Stock" ∧ i.typeName ≠ "Futures")
    (fun u i npv y => ∃ T, DoneBy e.mkt.w.date (fun j => j ∈ g.insts ∧ u ∈ j.unds ∧ j.typeName ≠ "Cash" ∧ j.typeName ≠ "Stock" ∧ j.typeName ≠ "Futures") T ∧
            VegaByTenor g e.mkt u g.conf.vegaSBump T (ds.map (timeFrom e.mkt.w.date)) i npv y) _ e e' (nodup_allUnds _) hmem
    (fun n hn act hact hne f f' hf hfa hr => by
      have hm := hmem n hn act hact
      have := vegaSRound_spec g hg n _ e.mkt hM (hgrid n) f f' (by rw [hfa]; exact fun i hi => ((hm i).1 hi).1) (by rw [hfa]; exact hne) hf hr
      rw [hfa] at this
      have hP : (fun j => j ∈ act) = fun j => j ∈ g.insts ∧ n ∈ j.unds ∧ j.typeName ≠ "Cash" ∧ j.typeName ≠ "Stock" ∧ j.typeName ≠ "Futures" :=
        funext fun j => propext (hm j)
      rw [hP] at this
      exact this)
    rfl h
  refine ⟨h1, h3, fun i hi x hx => ?_⟩
  obtain ⟨y, hy, e1, e2, e3⟩ := h2 i hi x hx
  exact ⟨y, hy, e1, fun n => ⟨fun hu => e2 n ((mem_allUnds _ _).2 ⟨i, hi, hu.1⟩) hu, fun hu => e3 n fun hc => hu hc.2⟩⟩

/-- **C93** (the tenors add up). The numbers of the tenors add up to the forward difference with the whole surface raised: with the same bump, to
the vega of `C90_vega`. -/
theorem C93_adds_up (g : EngCfg) (M : Mkt) (u : String) (b T : ℝ) (times : List ℝ) (hne : times ≠ []) (i : Instr) (npv : Option NpvResult) (y : Option (List ℝ))
    (h : VegaByTenor g M u b T times i npv y) : ∃ L m, y = some L ∧ VolShifted u (fun _ _ => True) b M m ∧ ForwardDiff g m b 0.01 i npv (some L.sum) := by
  obtain ⟨v, z, h1, h2, h3, h4, rfl⟩ := h
  have hpos : 0 < times.length := List.length_pos_iff.2 hne
  obtain ⟨m, m1, m2⟩ := h3 0 hpos fun hc => absurd hc.1 (lt_irrefl _)
  refine ⟨_, m, rfl, ?_, v, z 0, h1, m2, h2, ?_⟩
  · obtain ⟨s, s', env, a1, a2⟩ := id m1
    exact volShifted_congr u _ _ b M m s a1 (fun t _ x _ => ⟨fun _ => trivial, fun _ => fromTenor_zero times t⟩) m1
  · rw [Option.some.injEq, ← h4 times.length (le_refl _) (Or.inl rfl)]
    have : ∀ n, ((List.range n).map fun k => (z k - z (k + 1)) / b * 0.01 * i.notional).sum = (z 0 - z n) / b * 0.01 * i.notional := by
      intro n
      induction n with
      | zero => simp
      | succ n ih =>
        rw [List.range_succ, List.map_append, List.sum_append, ih]
        simp only [List.map_cons, List.map_nil, List.sum_cons, List.sum_nil]
        ring
    exact this _

theorem vegaSLoop_total (g : EngCfg) (hg : OwnCodes g) (u : String) (act : List Instr) (ha : Among g act) (times : List ℝ) (T : ℝ) (M : Mkt)
    (s0 : Surf) (hs0 : M.vols u = some (.surface s0)) (hsort : times.Pairwise (· < ·)) (hb0 : g.conf.vegaSBump ≠ 0)
    (hprice : ∀ i ∈ act, ∀ k, k < times.length → ∀ m, VolShifted u (fun t _ => FromTenor times k t) g.conf.vegaSBump M m → ∃ up, g.npv i m = .ok up) :
    ∀ (n : Nat) (m : Mkt) (prev : Map String ℝ) (t : Map String (List ℝ)) (r : Results), n ≤ times.length →
    VolShifted u (fun t _ => FromTenor times n t) g.conf.vegaSBump M m → GoodVols m →
    (∀ i ∈ act, (∃ z, prev i.code = some z) ∧ (∃ L, t i.code = some L) ∧ ∃ x, r i.code = some x) →
    ∃ m' r', vegaSLoop g u act times T n m prev t r = .ok (m', r') ∧ GoodVols m' ∧ VolShifted u (fun t _ => FromTenor times 0 t) g.conf.vegaSBump M m' := by
  intro n
  induction n with
  | zero => exact fun m prev t r _ hm hgm _ => ⟨m, r, rfl, hgm, hm⟩
  | succ n ih =>
    intro m prev t r hn hm hgm hall
    obtain ⟨s, s1, env, -, -, -, -, -, -, hmm⟩ := id hm
    have hs1 : m.vols u = some (.surface s1) := by rw [hmm]; exact put_self _ _ _
    obtain ⟨m1, h1⟩ := bumpVol_ok m hgm u (startOf times n) times[n]? none none g.conf.vegaSBump _ hs1
    obtain ⟨q1, q2⟩ := volShifted_step u _ M m m1 s0 hs0 hgm _ (fun t _ => FromTenor times n t) _ _ _ _ hm h1 fun t _ x _ => by
      have hx : InWindow none none x := ⟨by simp, by simp⟩
      obtain ⟨w1, w2⟩ := fromTenor_step times hsort n (by omega) t
      exact ⟨by rw [w1]; simp [hx], fun hc => w2 ⟨hc.1, hc.2.1⟩⟩
    unfold vegaSLoop
    rw [h1, Res.bind_ok]
    by_cases hb : beyond T (startOf times n) = true
    · rw [if_pos hb]
      exact ih m1 prev t r (by omega) q1 q2 hall
    · rw [if_neg hb]
      obtain ⟨ups, h2⟩ := getNpvs_total g m1 act (fun _ => none) fun i hi => hprice i hi n (by omega) m1 q1
      obtain ⟨n1, -⟩ := getNpvs_spec g hg _ _ _ _ ha h2
      obtain ⟨t1, h3⟩ := tableLoop_total (fun (l : List ℝ) v => l.set n v) ups (fun c => orErr (prev c)) g.conf.vegaSBump 0.01 hb0 act t fun i hi => by
        obtain ⟨up, -, hup⟩ := n1 i hi
        obtain ⟨⟨z, hz⟩, hL, -⟩ := hall i hi
        exact ⟨⟨up, hup⟩, ⟨z, (orErr_eq _ _).2 hz⟩, hL⟩
      obtain ⟨s1, -⟩ := tableLoop_spec g hg (fun l v => l.set n v) (fun l v => by simp only [List.set_set]) ups _ _ _ act t t1 ha h3
      obtain ⟨r1, h4⟩ := writeTables_total (fun (x : EResult) v => { x with vegaS := x.vegaS.put u v }) t1 (act.map Instr.code) r fun c hc => by
        obtain ⟨i, hi, rfl⟩ := List.mem_map.1 hc
        obtain ⟨_, _, _, -, -, -, -, q⟩ := s1 i hi
        exact ⟨⟨_, q⟩, (hall i hi).2.2⟩
      obtain ⟨w1, -⟩ := writeTables_spec (fun (x : EResult) v => { x with vegaS := x.vegaS.put u v }) (fun x v w => by simp only [put_put]) t1 _ _ _ h4
      rw [h2, Res.bind_ok, h3, Res.bind_ok, h4, Res.bind_ok]
      refine ih m1 ups t1 r1 (by omega) q1 q2 fun i hi => ?_
      obtain ⟨up, -, hup⟩ := n1 i hi
      obtain ⟨_, _, _, -, -, -, -, q⟩ := s1 i hi
      obtain ⟨_, _, -, -, w⟩ := w1 i.code (List.mem_map_of_mem hi)
      exact ⟨⟨up, hup⟩, ⟨_, q⟩, ⟨_, w⟩⟩

/-- **C93** (when it succeeds). It is enough that the bump is not 0, the tenors can be counted, the surfaces of the underlyings are there and on
these tenors, every instrument has its npv, and every instrument other than cash, stock and future can be repriced with the volatilities of each of its
underlyings raised from each tenor on. -/
theorem C93_succeeds (g : EngCfg) (hg : OwnCodes g) (e : Eng) (hM : GoodVols e.mkt) (hv : Valued g.insts e.results) (hb : g.conf.vegaSBump ≠ 0) (ds : List DT)
    (hds : calcDates g.md e.mkt.w.date g.conf.vegaTenors = .ok ds) (hgrid : TenorGrid e.mkt ds)
    (h : ∀ i ∈ g.insts, i.typeName ≠ "Cash" ∧ i.typeName ≠ "Stock" ∧ i.typeName ≠ "Futures" → ∀ u ∈ i.unds, (∃ v, e.mkt.vols u = some v) ∧ ∀ k, k < ds.length → ∀ m,
      VolShifted u (fun t _ => FromTenor (ds.map (timeFrom e.mkt.w.date)) k t) g.conf.vegaSBump e.mkt m → ∃ up, g.npv i m = .ok up) :
    ∃ e', setVegaS g e = .ok e' := by
  unfold setVegaS
  rw [hds, Res.bind_ok]
  refine eachName_total vegaSPart g e.mkt _ _ (fun u i npv y => ∃ T, DoneBy e.mkt.w.date (· ∈ withUnderlying g.insts u ["Cash", "Stock", "Futures"]) T ∧
            VegaByTenor g e.mkt u g.conf.vegaSBump T (ds.map (timeFrom e.mkt.w.date)) i npv y) _ e (fun u hu => ?_) rfl hv
  have hexc : ∀ i : Instr, i.typeName ∉ ["Cash", "Stock", "Futures"] ↔ i.typeName ≠ "Cash" ∧ i.typeName ≠ "Stock" ∧ i.typeName ≠ "Futures" := fun i => by simp
  have hmem : ∀ i, i ∈ withUnderlying g.insts u ["Cash", "Stock", "Futures"] ↔ i ∈ g.insts ∧ (u ∈ i.unds ∧ i.typeName ≠ "Cash" ∧ i.typeName ≠ "Stock" ∧ i.typeName ≠ "Futures") := fun i => by
    rw [withUnderlying_mem, hexc]
  refine ⟨_, rfl, fun i hi => ((hmem i).1 hi).1, fun hne f hf hfa hfv => ?_⟩
  have hAm : Among g f.action := by rw [hfa]; exact fun i hi => ((hmem i).1 hi).1
  obtain ⟨i0, hi0⟩ := List.exists_mem_of_ne_nil _ hne
  obtain ⟨⟨v0, hv0⟩, -⟩ := h i0 ((hmem i0).1 hi0).1 ((hmem i0).1 hi0).2.2 u ((hmem i0).1 hi0).2.1
  obtain ⟨s0, _, _, rfl, -, hgood, -⟩ := hM u v0 hv0
  have hgr := hgrid u s0 hv0
  have hsort : (ds.map (timeFrom e.mkt.w.date)).Pairwise (· < ·) := hgr ▸ hgood.times
  have : ∃ f', vegaSRound g (ds.map (timeFrom e.mkt.w.date)) u f = .ok f' := by
    unfold vegaSRound
    rw [hf]
    obtain ⟨prev, h1⟩ := baseNpvs_total f.results f.action (fun _ => none) fun i hi => hfv i (hAm i hi)
    obtain ⟨b1, -⟩ := baseNpvs_spec g hg f.results f.action _ _ hAm h1
    obtain ⟨m', r', h2, h3, h4⟩ := vegaSLoop_total g hg u f.action hAm (ds.map (timeFrom e.mkt.w.date)) (longestTime e.mkt.w.date f.action) e.mkt s0 hv0 hsort hb
      (fun i hi k hk m hm => by
        rw [hfa] at hi
        exact (h i ((hmem i).1 hi).1 ((hmem i).1 hi).2.2 u ((hmem i).1 hi).2.1).2 k (by simpa using hk) m hm)
      (ds.map (timeFrom e.mkt.w.date)).length e.mkt prev (zeroTables (List.replicate (ds.map (timeFrom e.mkt.w.date)).length 0) f.action fun _ => none) f.results (le_refl _)
      (volShifted_none u _ e.mkt hM s0 hv0 _ fun t ht x _ => fromTenor_last _ hsort t (hgr ▸ ht)) hM
      (fun i hi => by
        obtain ⟨z, -, hz⟩ := b1 i hi
        obtain ⟨x, v, hx, -⟩ := hfv i (hAm i hi)
        exact ⟨⟨z, hz⟩, ⟨_, (zeroTables_spec _ f.action fun _ => none).1 i hi⟩, ⟨x, hx⟩⟩)
    rw [h1, Res.bind_ok, h2, Res.bind_ok]
    obtain ⟨s, s1, env, -, -, -, -, -, -, hmm⟩ := id h4
    have hs1 : m'.vols u = some (.surface s1) := by rw [hmm]; exact put_self _ _ _
    obtain ⟨m2, h5⟩ := bumpVol_ok m' h3 u none none none none (-g.conf.vegaSBump) _ hs1
    dsimp only
    rw [h5]
    exact ⟨_, rfl⟩
  obtain ⟨f', hf'⟩ := this
  have := vegaSRound_spec g hg u _ e.mkt hM (hgrid u) f f' hAm (by rw [hfa]; exact hne) hf hf'
  rw [hfa] at this
  exact ⟨f', hf', this⟩

end Verif.Props
