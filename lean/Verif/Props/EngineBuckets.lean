import Verif.Props.EngineTime
/-!
# C93-C95: greeks of the pricing engine by tenor
-/
set_option autoImplicit false
namespace Verif.Props
open Verif Verif.QL Verif.Civil

/-! ## Tables -/

theorem tableLoop_spec {τ : Type} (g : EngCfg) (hg : OwnCodes g) (put : τ → ℝ → τ) (hput : ∀ x v, put (put x v) v = put x v) (ups : Map String ℝ)
    (base : String → Res ℝ) (b unit : ℝ) : ∀ (act : List Instr) (t t' : Map String τ), Among g act → tableLoop put ups base b unit act t = .ok t' →
    (∀ i ∈ act, ∃ up v x, ups i.code = some up ∧ base i.code = .ok v ∧ b ≠ 0 ∧ t i.code = some x ∧
      t' i.code = some (put x ((up - v) / b * unit * i.notional))) ∧
    ∀ c, c ∉ act.map Instr.code → t' c = t c := by
  intro act
  induction act with
  | nil =>
    intro t t' _ h
    obtain rfl := Except.ok.inj h
    exact ⟨by simp, fun _ _ => rfl⟩
  | cons i l ih =>
    intro t t' ha h
    unfold tableLoop at h
    obtain ⟨up, hup, h⟩ := (bind_ok_iff _ _ _).1 h
    obtain ⟨v, hv, h⟩ := (bind_ok_iff _ _ _).1 h
    obtain ⟨q, hq, h⟩ := (bind_ok_iff _ _ _).1 h
    obtain ⟨x, hx, h⟩ := (bind_ok_iff _ _ _).1 h
    rw [orErr_eq] at hup hx
    obtain ⟨hb, rfl⟩ := (divK_eq _ _ _).1 hq
    obtain ⟨h1, h2⟩ := ih _ _ (fun j hj => ha j (List.mem_cons_of_mem _ hj)) h
    have hi : t' i.code = some (put x ((up - v) / b * unit * i.notional)) := by
      by_cases hm : i.code ∈ l.map Instr.code
      · obtain ⟨k, hk, ek⟩ := List.mem_map.1 hm
        obtain rfl := code_unique g hg k i (ha k (List.mem_cons_of_mem _ hk)) (ha i (by simp)) ek
        obtain ⟨up1, v1, x1, a1, a2, -, a3, a4⟩ := h1 k hk
        rw [put_self] at a3
        obtain rfl := Option.some.inj a3
        rw [hup] at a1
        obtain rfl := Option.some.inj a1
        rw [hv] at a2
        obtain rfl := Except.ok.inj a2
        rw [a4, hput]
      · rw [h2 _ hm, put_self]
    refine ⟨?_, ?_⟩
    · intro j hj
      by_cases hc : j.code = i.code
      · obtain rfl := code_unique g hg j i (ha j hj) (ha i (by simp)) hc
        exact ⟨up, v, x, hup, hv, hb, hx, hi⟩
      · rcases List.mem_cons.1 hj with rfl | hj'
        · exact absurd rfl hc
        · obtain ⟨up1, v1, x1, a1, a2, a3, a4, a5⟩ := h1 j hj'
          rw [put_other _ _ _ _ hc] at a4
          exact ⟨up1, v1, x1, a1, a2, a3, a4, a5⟩
    · intro c hc
      simp only [List.map_cons, List.mem_cons, not_or] at hc
      rw [h2 c hc.2, put_other _ _ _ _ hc.1]

theorem tableLoop_total {τ : Type} (put : τ → ℝ → τ) (ups : Map String ℝ) (base : String → Res ℝ) (b unit : ℝ) (hb : b ≠ 0) :
    ∀ (act : List Instr) (t : Map String τ), (∀ i ∈ act, (∃ up, ups i.code = some up) ∧ (∃ v, base i.code = .ok v) ∧ ∃ x, t i.code = some x) →
    ∃ t', tableLoop put ups base b unit act t = .ok t' := by
  intro act
  induction act with
  | nil => exact fun t _ => ⟨t, rfl⟩
  | cons i l ih =>
    intro t h
    obtain ⟨⟨up, hup⟩, ⟨v, hv⟩, x, hx⟩ := h i (by simp)
    unfold tableLoop
    rw [hup, hv, hx]
    simp only [orErr, Res.bind_ok]
    rw [(divK_eq (up - v) b _).2 ⟨hb, rfl⟩]
    simp only [Res.bind_ok]
    refine ih _ fun j hj => ?_
    obtain ⟨h1, h2, y, hy⟩ := h j (List.mem_cons_of_mem _ hj)
    refine ⟨h1, h2, ?_⟩
    by_cases hc : j.code = i.code
    · rw [hc, put_self]; exact ⟨_, rfl⟩
    · rw [put_other _ _ _ _ hc]; exact ⟨y, hy⟩

theorem writeTables_spec {τ : Type} (put : EResult → τ → EResult) (hput : ∀ x v w, put (put x v) w = put x w) (t : Map String τ) :
    ∀ (cs : List String) (r r' : Results), writeTables put t cs r = .ok r' →
    (∀ c ∈ cs, ∃ v x, t c = some v ∧ r c = some x ∧ r' c = some (put x v)) ∧ ∀ c, c ∉ cs → r' c = r c := by
  intro cs
  induction cs with
  | nil =>
    intro r r' h
    obtain rfl := Except.ok.inj h
    exact ⟨by simp, fun _ _ => rfl⟩
  | cons c cs ih =>
    intro r r' h
    unfold writeTables at h
    obtain ⟨v, hv, h⟩ := (bind_ok_iff _ _ _).1 h
    obtain ⟨x, hx, h⟩ := (bind_ok_iff _ _ _).1 h
    rw [orErr_eq] at hv hx
    obtain ⟨h1, h2⟩ := ih _ _ h
    refine ⟨?_, ?_⟩
    · intro k hk
      by_cases hc : k = c
      · subst hc
        refine ⟨v, x, hv, hx, ?_⟩
        by_cases hm : k ∈ cs
        · obtain ⟨v1, x1, a1, a2, a3⟩ := h1 k hm
          rw [put_self] at a2
          obtain rfl := Option.some.inj a2
          rw [hv] at a1
          obtain rfl := Option.some.inj a1
          rw [a3, hput]
        · rw [h2 k hm, put_self]
      · rcases List.mem_cons.1 hk with rfl | hk
        · exact absurd rfl hc
        · obtain ⟨v1, x1, a1, a2, a3⟩ := h1 k hk
          rw [put_other _ _ _ _ hc] at a2
          exact ⟨v1, x1, a1, a2, a3⟩
    · intro k hk
      simp only [List.mem_cons, not_or] at hk
      rw [h2 k hk.2, put_other _ _ _ _ hk.1]

theorem writeTables_total {τ : Type} (put : EResult → τ → EResult) (t : Map String τ) :
    ∀ (cs : List String) (r : Results), (∀ c ∈ cs, (∃ v, t c = some v) ∧ ∃ x, r c = some x) → ∃ r', writeTables put t cs r = .ok r' := by
  intro cs
  induction cs with
  | nil => exact fun r _ => ⟨r, rfl⟩
  | cons c cs ih =>
    intro r h
    obtain ⟨⟨v, hv⟩, x, hx⟩ := h c (by simp)
    unfold writeTables
    rw [hv, hx]
    simp only [orErr, Res.bind_ok]
    refine ih _ fun k hk => ?_
    obtain ⟨h1, y, hy⟩ := h k (List.mem_cons_of_mem _ hk)
    refine ⟨h1, ?_⟩
    by_cases hc : k = c
    · rw [hc, put_self]; exact ⟨_, rfl⟩
    · rw [put_other _ _ _ _ hc]; exact ⟨y, hy⟩

theorem zeroTables_spec {τ : Type} (z : τ) : ∀ (act : List Instr) (t : Map String τ),
    (∀ i ∈ act, zeroTables z act t i.code = some z) ∧ ∀ c, c ∉ act.map Instr.code → zeroTables z act t c = t c
  | [], t => ⟨by simp, fun _ _ => rfl⟩
  | i :: l, t => by
    obtain ⟨h1, h2⟩ := zeroTables_spec z l (t.put i.code z)
    unfold zeroTables
    refine ⟨fun j hj => ?_, fun c hc => ?_⟩
    · by_cases hm : j.code ∈ l.map Instr.code
      · obtain ⟨k, hk, e⟩ := List.mem_map.1 hm
        rw [← e]; exact h1 k hk
      · rw [h2 _ hm]
        rcases List.mem_cons.1 hj with rfl | hj
        · rw [put_self]
        · exact absurd (List.mem_map_of_mem hj) hm
    · simp only [List.map_cons, List.mem_cons, not_or] at hc
      rw [h2 c hc.2, put_other _ _ _ _ hc.1]

theorem baseNpv_ok (r : Results) (c : String) (v : ℝ) : baseNpv r c = .ok v ↔ ∃ x w, r c = some x ∧ x.npv = some w ∧ v = w.npv := by
  unfold baseNpv
  constructor
  · intro h
    obtain ⟨x, hx, h⟩ := (bind_ok_iff _ _ _).1 h
    obtain ⟨w, hw, h⟩ := (bind_ok_iff _ _ _).1 h
    exact ⟨x, w, (orErr_eq _ _).1 hx, (orErr_eq _ _).1 hw, (Except.ok.inj h).symm⟩
  · rintro ⟨x, w, hx, hw, rfl⟩
    rw [hx]
    simp only [orErr, Res.bind_ok]
    rw [hw]
    rfl

/-! ## C94, C95: windows -/

/-- Specification: the window of tenor `k` is looked at: after each earlier tenor date, one of the instruments `P` has yet to mature. -/
def TenorReached (P : Instr → Prop) (dates : List DT) (k : Nat) : Prop :=
  ∀ (j : Nat) d, j < k → dates[j]? = some d → ∃ i, P i ∧ ∀ m, i.maturity = some m → d.instant < m.instant

/-- Specification: a greek by tenors. One number per tenor: the forward difference with the window of the tenor bumped (`moved k m`: the market
`m` is so), if it is looked at, otherwise 0. -/
def ByTenor (g : EngCfg) (moved : Nat → Mkt → Prop) (b unit : ℝ) (dates : List DT) (P : Instr → Prop) (i : Instr) (npv : Option NpvResult)
    (y : Option (List ℝ)) : Prop :=
  ∃ L, y = some L ∧ L.length = dates.length ∧ ∀ k, k < dates.length →
    (TenorReached P dates k → ∃ m, moved k m ∧ ForwardDiff g m b unit i npv L[k]?) ∧ (¬ TenorReached P dates k → L[k]? = some 0)

theorem over_some (act : List Instr) (ht : ∀ i ∈ act, i.typeName ≠ "Stock" ∧ i.typeName ≠ "Cash") (d : DT) :
    (maturityOver act d ["Stock", "Cash"]).isEmpty = false ↔ ∃ i ∈ act, ∀ m, i.maturity = some m → d.instant < m.instant := by
  rw [List.isEmpty_eq_false_iff_exists_mem]
  have hmem : ∀ i, i ∈ maturityOver act d ["Stock", "Cash"] ↔ i ∈ act ∧ ∀ m, i.maturity = some m → d.instant < m.instant := by
    intro i
    rw [(C80_selections act "" .nil [] ["Stock", "Cash"] d).2.2.2.2.mem]
    constructor
    · rintro ⟨a, -, b⟩; exact ⟨a, b⟩
    · rintro ⟨a, b⟩; exact ⟨a, by have := ht i a; simp [this.1, this.2], b⟩
  constructor
  · rintro ⟨i, hi⟩
    obtain ⟨a, b⟩ := (hmem i).1 hi
    exact ⟨i, a, b⟩
  · rintro ⟨i, a, b⟩
    exact ⟨i, (hmem i).2 ⟨a, b⟩⟩

theorem windowLoop_spec (g : EngCfg) (hg : OwnCodes g) (bump : Nat → ℝ → Mkt → Res Mkt) (b unit : ℝ) (dates : List DT) (act : List Instr) (ha : Among g act)
    (ht : ∀ i ∈ act, i.typeName ≠ "Stock" ∧ i.typeName ≠ "Cash") (r : Results) (M : Mkt)
    (hback : ∀ k m, bump k b M = .ok m → bump k (-b) m = .ok M) :
    ∀ (left k : Nat) (m' : Mkt) (t t' : Map String (List ℝ)), k + left = dates.length →
    windowLoop g bump b unit dates act r left k M t = .ok (m', t') →
    m' = M ∧ ∀ i ∈ act, ∀ L, t i.code = some L → L.length = dates.length → ∃ L', t' i.code = some L' ∧ L'.length = dates.length ∧
      (∀ (j : Nat), j < k → L'[j]? = L[j]?) ∧ ∀ (j : Nat), k ≤ j → j < dates.length →
        ((∀ (s : Nat) d, k ≤ s → s < j → dates[s]? = some d → ∃ i ∈ act, ∀ m, i.maturity = some m → d.instant < m.instant) →
          ∃ x m, r i.code = some x ∧ bump j b M = .ok m ∧ ForwardDiff g m b unit i x.npv L'[j]?) ∧
        (¬ (∀ (s : Nat) d, k ≤ s → s < j → dates[s]? = some d → ∃ i ∈ act, ∀ m, i.maturity = some m → d.instant < m.instant) → L'[j]? = L[j]?) := by
  intro left
  induction left with
  | zero =>
    intro k m' t t' hk h
    obtain ⟨rfl, rfl⟩ := Prod.mk.inj (Except.ok.inj h)
    exact ⟨rfl, fun i _ L hL hlen => ⟨L, hL, hlen, fun _ _ => rfl, fun j h1 h2 => by omega⟩⟩
  | succ left ih =>
    intro k m' t t' hk h
    unfold windowLoop at h
    obtain ⟨m1, h1, h⟩ := (bind_ok_iff _ _ _).1 h
    obtain ⟨ups, h2, h⟩ := (bind_ok_iff _ _ _).1 h
    obtain ⟨t1, h3, h⟩ := (bind_ok_iff _ _ _).1 h
    obtain ⟨m2, h4, h⟩ := (bind_ok_iff _ _ _).1 h
    obtain ⟨d, h5, h⟩ := (bind_ok_iff _ _ _).1 h
    rw [hback k m1 h1] at h4
    obtain rfl := Except.ok.inj h4
    have hd : dates[k]? = some d := by
      unfold at_ at h5
      split at h5
      · rename_i hlt
        rw [hlt, Except.ok.inj h5]
      · cases h5
    obtain ⟨n1, -⟩ := getNpvs_spec g hg _ _ _ _ ha h2
    obtain ⟨s1, s2⟩ := tableLoop_spec g hg (fun l v => l.set k v) (fun l v => by simp only [List.set_set]) ups (baseNpv r) b unit act t t1 ha h3
    have here : ∀ i ∈ act, ∀ L, t i.code = some L → L.length = dates.length → ∃ L1, t1 i.code = some L1 ∧ L1.length = dates.length ∧
        (∀ (j : Nat), j ≠ k → L1[j]? = L[j]?) ∧ ∃ x m, r i.code = some x ∧ bump k b M = .ok m ∧ ForwardDiff g m b unit i x.npv L1[k]? := by
      intro i hi L hL hlen
      obtain ⟨up, v, x, a1, a2, a3, a4, a5⟩ := s1 i hi
      rw [hL] at a4
      obtain rfl := Option.some.inj a4
      obtain ⟨up', b1, b2⟩ := n1 i hi
      rw [a1] at b2
      obtain rfl := Option.some.inj b2
      obtain ⟨y, w, c1, c2, rfl⟩ := (baseNpv_ok _ _ _).1 a2
      refine ⟨_, a5, by simpa using hlen, fun j hj => List.getElem?_set_ne (Ne.symm hj), y, m1, c1, h1, w, up, c2, b1, a3, ?_⟩
      exact List.getElem?_set_self (by omega)
    by_cases he : (maturityOver act d ["Stock", "Cash"]).isEmpty = true
    · rw [if_pos he] at h
      obtain ⟨rfl, rfl⟩ := Prod.mk.inj (Except.ok.inj h)
      refine ⟨rfl, fun i hi L hL hlen => ?_⟩
      obtain ⟨L1, q1, q2, q3, x, m, q4, q5, q6⟩ := here i hi L hL hlen
      refine ⟨L1, q1, q2, fun j hj => q3 j (by omega), fun j hj hjn => ⟨fun hr => ?_, fun hr => ?_⟩⟩
      · by_cases hjk : j = k
        · subst hjk
          exact ⟨x, m, q4, q5, q6⟩
        · have := hr k d (le_refl _) (by omega) hd
          rw [← over_some act ht d, he] at this
          cases this
      · refine q3 j fun hjk => hr ?_
        subst hjk
        intro s d' h1 h2
        omega
    · rw [if_neg he] at h
      obtain ⟨g1, g2⟩ := ih (k + 1) m' t1 t' (by omega) h
      refine ⟨g1, fun i hi L hL hlen => ?_⟩
      obtain ⟨L1, q1, q2, q3, x, m, q4, q5, q6⟩ := here i hi L hL hlen
      obtain ⟨L', p1, p2, p3, p4⟩ := g2 i hi L1 q1 q2
      refine ⟨L', p1, p2, fun j hj => (p3 j (by omega)).trans (q3 j (by omega)), fun j hj hjn => ?_⟩
      have hex : ∃ i ∈ act, ∀ m, i.maturity = some m → d.instant < m.instant := (over_some act ht d).1 (by simpa using he)
      by_cases hjk : j = k
      · subst hjk
        refine ⟨fun _ => ⟨x, m, q4, q5, by rw [p3 j (by omega)]; exact q6⟩, fun hr => absurd (fun s d' h1 h2 => ?_) hr⟩
        omega
      · obtain ⟨r1, r2⟩ := p4 j (by omega) hjn
        refine ⟨fun hr => r1 fun s d' hs => hr s d' (by omega), fun hr => ?_⟩
        rw [r2 fun hall => hr fun s d' hs hsj hsd => ?_, q3 j hjk]
        by_cases hsk : s = k
        · subst hsk
          rw [hd] at hsd
          obtain rfl := Option.some.inj hsd
          exact hex
        · exact hall s d' (by omega) hsj hsd

theorem windowRound_spec (g : EngCfg) (hg : OwnCodes g) (P : Part (Map String (List ℝ)) (Option (List ℝ))) (n : String) (put : EResult → List ℝ → EResult)
    (hp : PutAt P n put) (bump : Nat → ℝ → Mkt → Res Mkt) (b unit : ℝ) (dates : List DT) (M : Mkt)
    (hback : ∀ k m, bump k b M = .ok m → bump k (-b) m = .ok M) (e e' : Eng) (ha : Among g e.action)
    (ht : ∀ i ∈ e.action, i.typeName ≠ "Stock" ∧ i.typeName ≠ "Cash") (hm : e.mkt = M) (h : windowRound g bump put b unit dates e = .ok e') :
    e'.mkt = M ∧ Changed P n e.action (fun i npv y => ByTenor g (fun k m => bump k b M = .ok m) b unit dates (· ∈ e.action) i npv y) e.results e'.results := by
  unfold windowRound at h
  obtain ⟨⟨m', t'⟩, h1, h⟩ := (bind_ok_iff _ _ _).1 h
  obtain ⟨r, h2, h⟩ := (bind_ok_iff _ _ _).1 h
  obtain rfl := Except.ok.inj h
  rw [hm] at h1
  obtain ⟨w1, w2⟩ := windowLoop_spec g hg bump b unit dates e.action ha ht e.results M hback dates.length 0 m' _ t' (by omega) h1
  obtain ⟨p1, p2⟩ := writeTables_spec put (fun x v w => hp.twice x v w) t' _ _ _ h2
  refine ⟨w1, fun i hi => ?_, p2⟩
  obtain ⟨v, x, a1, a2, a3⟩ := p1 i.code (List.mem_map_of_mem hi)
  obtain ⟨L', b1, b2, -, b3⟩ := w2 i hi _ ((zeroTables_spec (List.replicate dates.length (0 : ℝ)) e.action fun _ => none).1 i hi) (by simp)
  rw [a1] at b1
  obtain rfl := Option.some.inj b1
  obtain ⟨c1, c2, c3⟩ := hp.changed x v
  refine ⟨x, _, a2, a3, c1, ⟨v, c2, b2, fun k hk => ?_⟩, c3⟩
  obtain ⟨d1, d2⟩ := b3 k (Nat.zero_le _) hk
  have hre : (∀ (s : Nat) d, 0 ≤ s → s < k → dates[s]? = some d → ∃ i ∈ e.action, ∀ m, i.maturity = some m → d.instant < m.instant) ↔ TenorReached (· ∈ e.action) dates k :=
    ⟨fun h j d hj hd => h j d (Nat.zero_le _) hj hd, fun h j d _ hj hd => h j d hj hd⟩
  rw [hre] at d1 d2
  refine ⟨fun hr => ?_, fun hr => ?_⟩
  · obtain ⟨x', m, q1, q2, q3⟩ := d1 hr
    rw [a2] at q1
    obtain rfl := Option.some.inj q1
    exact ⟨m, q2, q3⟩
  · rw [d2 hr, List.getElem?_replicate, if_pos hk]

theorem windowLoop_total (g : EngCfg) (hg : OwnCodes g) (bump : Nat → ℝ → Mkt → Res Mkt) (b unit : ℝ) (hb : b ≠ 0) (dates : List DT) (act : List Instr) (ha : Among g act)
    (r : Results) (M : Mkt) (hr : ∀ i ∈ act, ∃ x v, r i.code = some x ∧ x.npv = some v)
    (hbump : ∀ k, k < dates.length → ∃ m, bump k b M = .ok m ∧ bump k (-b) m = .ok M ∧ ∀ i ∈ act, ∃ v, g.npv i m = .ok v) :
    ∀ (left k : Nat) (t : Map String (List ℝ)), k + left = dates.length → (∀ i ∈ act, ∃ L, t i.code = some L) →
    ∃ mt, windowLoop g bump b unit dates act r left k M t = .ok mt ∧ ∀ i ∈ act, ∃ L, mt.2 i.code = some L := by
  intro left
  induction left with
  | zero => exact fun k t _ ht => ⟨(M, t), rfl, ht⟩
  | succ left ih =>
    intro k t hk ht
    obtain ⟨m, h1, h2, h3⟩ := hbump k (by omega)
    unfold windowLoop
    obtain ⟨ups, h4⟩ := getNpvs_total g m act (fun _ => none) h3
    obtain ⟨n1, -⟩ := getNpvs_spec g hg _ _ _ _ ha h4
    obtain ⟨t1, h5⟩ := tableLoop_total (fun (l : List ℝ) v => l.set k v) ups (baseNpv r) b unit hb act t fun i hi => by
      obtain ⟨u, -, hu⟩ := n1 i hi
      obtain ⟨x, v, hx, hv⟩ := hr i hi
      exact ⟨⟨u, hu⟩, ⟨v.npv, (baseNpv_ok _ _ _).2 ⟨x, v, hx, hv, rfl⟩⟩, ht i hi⟩
    obtain ⟨s1, -⟩ := tableLoop_spec g hg (fun l v => l.set k v) (fun l v => by simp only [List.set_set]) ups (baseNpv r) b unit act t t1 ha h5
    have ht1 : ∀ i ∈ act, ∃ L, t1 i.code = some L := fun i hi => by
      obtain ⟨_, _, _, -, -, -, -, q⟩ := s1 i hi
      exact ⟨_, q⟩
    rw [h1, Res.bind_ok, h4, Res.bind_ok, h5, Res.bind_ok, h2, Res.bind_ok]
    have hd : at_ dates k = .ok (dates[k]'(by omega)) := by
      unfold at_
      rw [List.getElem?_eq_getElem (by omega)]
    rw [hd, Res.bind_ok]
    split
    · exact ⟨_, rfl, ht1⟩
    · exact ih (k + 1) t1 (by omega) ht1

theorem windowRound_total (g : EngCfg) (hg : OwnCodes g) (bump : Nat → ℝ → Mkt → Res Mkt) (put : EResult → List ℝ → EResult) (b unit : ℝ) (hb : b ≠ 0) (dates : List DT) (M : Mkt)
    (e : Eng) (ha : Among g e.action) (hm : e.mkt = M) (hv : Valued g.insts e.results)
    (hbump : ∀ k, k < dates.length → ∃ m, bump k b M = .ok m ∧ bump k (-b) m = .ok M ∧ ∀ i ∈ e.action, ∃ v, g.npv i m = .ok v) :
    ∃ e', windowRound g bump put b unit dates e = .ok e' := by
  unfold windowRound
  rw [hm]
  obtain ⟨mt, h1, h2⟩ := windowLoop_total g hg bump b unit hb dates e.action ha e.results M (fun i hi => hv i (ha i hi)) hbump dates.length 0
    (zeroTables (List.replicate dates.length 0) e.action fun _ => none) (by omega) fun i hi => ⟨_, (zeroTables_spec _ e.action fun _ => none).1 i hi⟩
  rw [h1, Res.bind_ok]
  obtain ⟨r, h3⟩ := writeTables_total put mt.2 (e.action.map Instr.code) e.results fun c hc => by
    obtain ⟨i, hi, rfl⟩ := List.mem_map.1 hc
    obtain ⟨x, v, hx, -⟩ := hv i (ha i hi)
    exact ⟨h2 i hi, x, hx⟩
  rw [h3]
  exact ⟨_, rfl⟩



/-- Specification: the time `t` is in the window of tenor `k`: after the tenor before (if there is one), up to this one. -/
def InTenor (times : List ℝ) (k : Nat) (t : ℝ) : Prop :=
  (∀ s, 0 < k → times[k - 1]? = some s → s < t) ∧ ∀ s, times[k]? = some s → t ≤ s

/-- Specification: the same for days. -/
def DayInTenor (dates : List DT) (k : Nat) (d : DT) : Prop :=
  (∀ s, 0 < k → dates[k - 1]? = some s → s.day < d.day) ∧ ∀ s, dates[k]? = some s → d.day ≤ s.day

theorem curve_time_nonneg (c : Curve) (ok : CurveOk c) (i : Nat) (t : ℝ) (ht : c.times[i]? = some t) : 0 ≤ t := by
  obtain ⟨hi, rfl⟩ := List.getElem?_eq_some_iff.1 ht
  obtain ⟨h0, e0⟩ := List.getElem?_eq_some_iff.1 ok.zero
  rcases Nat.eq_zero_or_pos i with rfl | hpos
  · rw [e0]
  · have := List.pairwise_iff_getElem.1 ok.inc 0 i h0 hi hpos
    rw [e0] at this
    exact this.le

theorem bumpTimes_tenor (times : List ℝ) (k : Nat) (hk : k < times.length) (t : ℝ) (ht : 0 ≤ t) : BumpTimes (startOf times k) times[k]? t ↔ InTenor times k t := by
  unfold BumpTimes InTenor startOf
  rw [List.getElem?_eq_getElem hk]
  simp only [Option.getD_some, Option.some.injEq, forall_eq']
  refine and_congr ?_ Iff.rfl
  by_cases h0 : k = 0
  · subst h0
    simp only [if_true, Option.getD_none]
    exact ⟨fun _ s h => absurd h (lt_irrefl _), fun _ => by linarith⟩
  · rw [if_neg h0, List.getElem?_eq_getElem (by omega : k - 1 < times.length)]
    simp only [Option.getD_some, Option.some.injEq]
    exact ⟨fun h s _ e => e ▸ h, fun h => h _ (by omega) rfl⟩

theorem divWindow_tenor (dates : List DT) (k : Nat) (d : DT) : DivWindow (startOf dates k) dates[k]? d ↔ DayInTenor dates k d := by
  unfold DivWindow DayInTenor startOf
  refine and_congr ?_ Iff.rfl
  by_cases h0 : k = 0
  · subst h0
    simp
  · rw [if_neg h0]
    exact ⟨fun h s _ e => h s e, fun h s e => h s (by omega) e⟩

theorem curveShifted_congr (n : String) (w w' : ℝ → Prop) (b : ℝ) (m m' : Mkt) (hm : GoodCurves m) (hw : ∀ t, 0 ≤ t → (w t ↔ w' t))
    (h : CurveShifted n w b m m') : CurveShifted n w' b m m' := by
  obtain ⟨c, c', a1, a2, a3, a4, a5, a6⟩ := h
  refine ⟨c, c', a1, a2, a3, a4, fun i t r ht hr => ?_, a6⟩
  rw [a5 i t r ht hr]
  have := hw t (curve_time_nonneg c (hm n c a1).1 i t ht)
  by_cases hc : w t
  · rw [if_pos hc, if_pos (this.1 hc)]
  · rw [if_neg hc, if_neg fun h => hc (this.2 h)]

theorem divShifted_congr (u : String) (w w' : DT → Prop) (b : ℝ) (m m' : Mkt) (hw : ∀ d, w d ↔ w' d) (h : DivShifted u w b m m') : DivShifted u w' b m m' := by
  obtain rfl : w = w' := funext fun d => propext (hw d)
  exact h

theorem byTenor_mono (g : EngCfg) (moved moved' : Nat → Mkt → Prop) (b unit : ℝ) (dates : List DT) (P P' : Instr → Prop) (i : Instr) (npv : Option NpvResult)
    (y : Option (List ℝ)) (hP : ∀ i, P i ↔ P' i) (hm : ∀ k m, k < dates.length → moved k m → moved' k m) (h : ByTenor g moved b unit dates P i npv y) :
    ByTenor g moved' b unit dates P' i npv y := by
  obtain rfl : P = P' := funext fun i => propext (hP i)
  obtain ⟨L, h1, h2, h3⟩ := h
  refine ⟨L, h1, h2, fun k hk => ⟨fun hr => ?_, (h3 k hk).2⟩⟩
  obtain ⟨m, a, c⟩ := (h3 k hk).1 hr
  exact ⟨m, hm k m hk a, c⟩

theorem rhoS_put (n : String) : PutAt rhoSPart n (fun x v => { x with rhoS := x.rhoS.put n v }) := ⟨fun _ _ => rfl, fun _ _ => rfl⟩
theorem divS_put (n : String) : PutAt divSPart n (fun x v => { x with divS := x.divS.put n v }) := ⟨fun _ _ => rfl, fun _ _ => rfl⟩

theorem setRhoS_eq (g : EngCfg) (e : Eng) : setRhoS g e = (do
    let names ← allCurves g.p [] g.insts
    let ds ← calcDates g.md e.mkt.w.date g.conf.rhoTenors
    eachName (fun n => usingCurve g.p n ["Stock", "Cash"] g.insts)
      (fun n => windowRound g (fun i b m => m.bumpCurve n (startOf (ds.map (timeFrom e.mkt.w.date)) i) (ds.map (timeFrom e.mkt.w.date))[i]? b)
        (fun x v => { x with rhoS := x.rhoS.put n v }) g.conf.rhoBump 0.0001 ds) names e) := rfl

/-- **C94** (rho by tenor). Let `ds` be the tenors counted from the evaluation date. After the part the market is what it was. Every
instrument other than stock and cash has, for each curve it uses, a list of one number per tenor: the forward difference of its npv when the
rates of the curve at times after the tenor before and up to this tenor rise by the bump, for a basis point and its notional; 0 for
tenors after one by which everything using the curve has matured. Nothing else in the results has changed. -/
theorem C94_rho_structure (g : EngCfg) (hg : OwnCodes g) (e e' : Eng) (hc : GoodCurves e.mkt) (h : setRhoS g e = .ok e') :
    (∀ i ∈ g.insts, CurvesNamed g.p i) ∧ e'.mkt = e.mkt ∧ (∀ c, c ∉ g.insts.map Instr.code → e'.results c = e.results c) ∧
    ∃ ds, calcDates g.md e.mkt.w.date g.conf.rhoTenors = .ok ds ∧
    ∀ i ∈ g.insts, ∀ x, e.results i.code = some x → ∃ y, e'.results i.code = some y ∧ y = { x with rhoS := y.rhoS } ∧
      ∀ n, (UsesCurve g.p n i ∧ i.typeName ≠ "Stock" ∧ i.typeName ≠ "Cash" →
          ByTenor g (fun k m => CurveShifted n (InTenor (ds.map (timeFrom e.mkt.w.date)) k) g.conf.rhoBump e.mkt m) g.conf.rhoBump 0.0001 ds
            (fun j => j ∈ g.insts ∧ UsesCurve g.p n j ∧ j.typeName ≠ "Stock" ∧ j.typeName ≠ "Cash") i x.npv (y.rhoS n)) ∧
        (¬ (UsesCurve g.p n i ∧ i.typeName ≠ "Stock" ∧ i.typeName ≠ "Cash") → y.rhoS n = x.rhoS n) := by
  rw [setRhoS_eq] at h
  obtain ⟨ns, hns, h⟩ := (bind_ok_iff _ _ _).1 h
  obtain ⟨ds, hds, h⟩ := (bind_ok_iff _ _ _).1 h
  obtain ⟨hn, rfl⟩ := allCurves_ok _ _ _ hns
  have hexc : ∀ i : Instr, i.typeName ∉ ["Stock", "Cash"] ↔ i.typeName ≠ "Stock" ∧ i.typeName ≠ "Cash" := fun i => by simp
  have hmem : ∀ n ∈ firsts (curvesInUse g.p g.insts), ∀ act, usingCurve g.p n ["Stock", "Cash"] g.insts = .ok act → ∀ i,
      i ∈ act ↔ i ∈ g.insts ∧ (UsesCurve g.p n i ∧ i.typeName ≠ "Stock" ∧ i.typeName ≠ "Cash") := fun n hn act hact i => by
    rw [usingCurve_mem g.p n (by obtain ⟨j, -, hj⟩ := (mem_curves _ _ _).1 hn; exact hj.1) _ _ _ hact i, hexc]
  obtain ⟨h1, h2, h3⟩ := eachName_spec rhoSPart g hg e.mkt _ _ (fun n i => UsesCurve g.p n i ∧ i.typeName ≠ "Stock" ∧ i.typeName ≠ "Cash")
    (fun n i npv y => ByTenor g (fun k m => CurveShifted n (InTenor (ds.map (timeFrom e.mkt.w.date)) k) g.conf.rhoBump e.mkt m) g.conf.rhoBump 0.0001 ds
      (fun j => j ∈ g.insts ∧ UsesCurve g.p n j ∧ j.typeName ≠ "Stock" ∧ j.typeName ≠ "Cash") i npv y) _ e e' (nodup_firsts _) hmem
    (fun n hn act hact _ f f' hf hfa hr => by
      have hm := hmem n hn act hact
      have := windowRound_spec g hg rhoSPart n _ (rhoS_put n) _ g.conf.rhoBump 0.0001 ds e.mkt (fun k m hk => (bumpCurve_spec e.mkt m hc n _ _ _ hk).2) f f'
        (by rw [hfa]; exact fun i hi => ((hm i).1 hi).1) (by rw [hfa]; exact fun i hi => ((hm i).1 hi).2.2) hf hr
      rw [hfa] at this
      refine ⟨this.1, fun i hi => ?_, this.2.2⟩
      obtain ⟨x, y, a1, a2, a3, a4, a5⟩ := this.2.1 i hi
      refine ⟨x, y, a1, a2, a3, ?_, a5⟩
      refine byTenor_mono g _ _ _ _ _ _ _ _ _ _ hm (fun k m hk hb => ?_) a4
      exact curveShifted_congr n _ _ _ _ _ hc (fun t ht => bumpTimes_tenor _ k (by simpa using hk) t ht) (bumpCurve_spec e.mkt m hc n _ _ _ hb).1)
    rfl h
  refine ⟨hn, h1, h3, ds, hds, fun i hi x hx => ?_⟩
  obtain ⟨y, hy, e1, e2, e3⟩ := h2 i hi x hx
  refine ⟨y, hy, e1, fun n => ⟨fun hu => e2 n ((mem_curves _ _ _).2 ⟨i, hi, hu.1⟩) hu, fun hu => e3 n fun hc => hu hc.2⟩⟩

/-- **C94** (when it succeeds). It is enough that the bump is not 0, the tenors can be counted and are in order, all curve names are
given, every instrument has its npv, and every instrument other than stock and cash can be repriced with each of its curves, which are there,
shifted in the window of each tenor. -/
theorem C94_succeeds (g : EngCfg) (hg : OwnCodes g) (e : Eng) (hc : GoodCurves e.mkt) (hv : Valued g.insts e.results) (hb : g.conf.rhoBump ≠ 0)
    (hn : ∀ i ∈ g.insts, CurvesNamed g.p i) (ds : List DT) (hds : calcDates g.md e.mkt.w.date g.conf.rhoTenors = .ok ds)
    (hord : ∀ k, k < ds.length → (startOf (ds.map (timeFrom e.mkt.w.date)) k).getD (-99999999) ≤ ((ds.map (timeFrom e.mkt.w.date))[k]?).getD 99999999)
    (h : ∀ i ∈ g.insts, i.typeName ≠ "Stock" ∧ i.typeName ≠ "Cash" → ∀ n, UsesCurve g.p n i → (∃ c, e.mkt.curves n = some c) ∧ ∀ k, k < ds.length → ∀ m,
      CurveShifted n (InTenor (ds.map (timeFrom e.mkt.w.date)) k) g.conf.rhoBump e.mkt m → ∃ up, g.npv i m = .ok up) :
    ∃ e', setRhoS g e = .ok e' := by
  rw [setRhoS_eq, (C82_curves g.p g.insts).1 hn, Res.bind_ok, hds, Res.bind_ok]
  refine eachName_total rhoSPart g e.mkt _ _ (fun n i npv y => ByTenor g (fun k m => CurveShifted n (InTenor (ds.map (timeFrom e.mkt.w.date)) k) g.conf.rhoBump e.mkt m) g.conf.rhoBump 0.0001 ds
      (fun j => j ∈ g.insts ∧ UsesCurve g.p n j ∧ j.typeName ≠ "Stock" ∧ j.typeName ≠ "Cash") i npv y) _ e (fun n hn' => ?_) rfl hv
  have hd : n ≠ dummy := by obtain ⟨j, -, hj⟩ := (mem_curves _ _ _).1 hn'; exact hj.1
  have hpick := (C82_using g.p n hd ["Stock", "Cash"] g.insts).1 fun i hi _ => hn i hi
  have hmem := usingCurve_mem g.p n hd _ _ _ hpick
  have hexc : ∀ i : Instr, i.typeName ∉ ["Stock", "Cash"] ↔ i.typeName ≠ "Stock" ∧ i.typeName ≠ "Cash" := fun i => by simp
  simp only [hexc] at hmem
  refine ⟨_, hpick, fun i hi => ((hmem i).1 hi).1, fun hne f hf hfa hfv => ?_⟩
  have hAm : Among g f.action := by rw [hfa]; exact fun i hi => ((hmem i).1 hi).1
  have hty : ∀ i ∈ f.action, i.typeName ≠ "Stock" ∧ i.typeName ≠ "Cash" := by rw [hfa]; exact fun i hi => ((hmem i).1 hi).2.2
  obtain ⟨i0, hi0⟩ := List.exists_mem_of_ne_nil _ hne
  obtain ⟨⟨c, hcn⟩, -⟩ := h i0 ((hmem i0).1 hi0).1 ((hmem i0).1 hi0).2.2 n ((hmem i0).1 hi0).2.1
  obtain ⟨f', hf'⟩ := windowRound_total g hg (fun i b m => m.bumpCurve n (startOf (ds.map (timeFrom e.mkt.w.date)) i) (ds.map (timeFrom e.mkt.w.date))[i]? b)
    (fun x v => { x with rhoS := x.rhoS.put n v }) g.conf.rhoBump 0.0001 hb ds e.mkt f hAm hf hfv (fun k hk => by
      obtain ⟨m, hm⟩ := bumpCurve_ok e.mkt hc n _ _ g.conf.rhoBump c hcn (hord k hk)
      obtain ⟨s1, s2⟩ := bumpCurve_spec e.mkt m hc n _ _ _ hm
      refine ⟨m, hm, s2, fun i hi => ?_⟩
      rw [hfa] at hi
      exact (h i ((hmem i).1 hi).1 ((hmem i).1 hi).2.2 n ((hmem i).1 hi).2.1).2 k hk m
        (curveShifted_congr n _ _ _ _ _ hc (fun t ht => bumpTimes_tenor _ k (by simpa using hk) t ht) s1))
  have := windowRound_spec g hg rhoSPart n _ (rhoS_put n) _ g.conf.rhoBump 0.0001 ds e.mkt (fun k m hk => (bumpCurve_spec e.mkt m hc n _ _ _ hk).2) f f' hAm hty hf hf'
  rw [hfa] at this
  refine ⟨f', hf', this.1, fun i hi => ?_, this.2.2⟩
  obtain ⟨x, y, a1, a2, a3, a4, a5⟩ := this.2.1 i hi
  refine ⟨x, y, a1, a2, a3, ?_, a5⟩
  refine byTenor_mono g _ _ _ _ _ _ _ _ _ _ hmem (fun k m hk hb => ?_) a4
  exact curveShifted_congr n _ _ _ _ _ hc (fun t ht => bumpTimes_tenor _ k (by simpa using hk) t ht) (bumpCurve_spec e.mkt m hc n _ _ _ hb).1

/-- **C95** (dividend delta by tenor), for markets without past dividends; `names` are the underlyings with dividends. As `C94_rho_structure`,
with the dividends of the underlying on days after the tenor before and up to this tenor. -/
theorem C95_div_structure (g : EngCfg) (hg : OwnCodes g) (names : List String) (hns : names.Nodup) (e e' : Eng) (hc : GoodDivs e.mkt) (h : setDivS g names e = .ok e') :
    e'.mkt = e.mkt ∧ (∀ c, c ∉ g.insts.map Instr.code → e'.results c = e.results c) ∧
    ∃ ds, calcDates g.md e.mkt.w.date g.conf.divTenors = .ok ds ∧
    ∀ i ∈ g.insts, ∀ x, e.results i.code = some x → ∃ y, e'.results i.code = some y ∧ y = { x with divS := y.divS } ∧
      ∀ u, (u ∈ names ∧ u ∈ i.unds ∧ i.typeName ≠ "Stock" ∧ i.typeName ≠ "Cash" →
          ByTenor g (fun k m => DivShifted u (DayInTenor ds k) g.conf.divBump e.mkt m) g.conf.divBump 0.0001 ds
            (fun j => j ∈ g.insts ∧ u ∈ j.unds ∧ j.typeName ≠ "Stock" ∧ j.typeName ≠ "Cash") i x.npv (y.divS u)) ∧
        (¬ (u ∈ names ∧ u ∈ i.unds ∧ i.typeName ≠ "Stock" ∧ i.typeName ≠ "Cash") → y.divS u = x.divS u) := by
  unfold setDivS at h
  obtain ⟨ds, hds, h⟩ := (bind_ok_iff _ _ _).1 h
  have hexc : ∀ i : Instr, i.typeName ∉ ["Stock", "Cash"] ↔ i.typeName ≠ "Stock" ∧ i.typeName ≠ "Cash" := fun i => by simp
  have hmem : ∀ u ∈ names, ∀ act, (Except.ok (withUnderlying g.insts u ["Stock", "Cash"]) : Res (List Instr)) = .ok act → ∀ i,
      i ∈ act ↔ i ∈ g.insts ∧ (u ∈ i.unds ∧ i.typeName ≠ "Stock" ∧ i.typeName ≠ "Cash") := fun n _ act hact i => by
    obtain rfl := Except.ok.inj hact
    rw [withUnderlying_mem, hexc]
  obtain ⟨h1, h2, h3⟩ := eachName_spec divSPart g hg e.mkt _ _ (fun u i => u ∈ i.unds ∧ i.typeName ≠ "Stock" ∧ i.typeName ≠ "Cash")
    (fun u i npv y => ByTenor g (fun k m => DivShifted u (DayInTenor ds k) g.conf.divBump e.mkt m) g.conf.divBump 0.0001 ds
      (fun j => j ∈ g.insts ∧ u ∈ j.unds ∧ j.typeName ≠ "Stock" ∧ j.typeName ≠ "Cash") i npv y) _ e e' hns hmem
    (fun n hn act hact _ f f' hf hfa hr => by
      have hm := hmem n hn act hact
      have := windowRound_spec g hg divSPart n _ (divS_put n) _ g.conf.divBump 0.0001 ds e.mkt (fun k m hk => (bumpDiv_spec e.mkt m hc n _ _ _ hk).2) f f'
        (by rw [hfa]; exact fun i hi => ((hm i).1 hi).1) (by rw [hfa]; exact fun i hi => ((hm i).1 hi).2.2) hf hr
      rw [hfa] at this
      refine ⟨this.1, fun i hi => ?_, this.2.2⟩
      obtain ⟨x, y, a1, a2, a3, a4, a5⟩ := this.2.1 i hi
      refine ⟨x, y, a1, a2, a3, ?_, a5⟩
      refine byTenor_mono g _ _ _ _ _ _ _ _ _ _ hm (fun k m hk hb => ?_) a4
      exact divShifted_congr n _ _ _ _ _ (fun d => divWindow_tenor ds k d) (bumpDiv_spec e.mkt m hc n _ _ _ hb).1)
    rfl h
  refine ⟨h1, h3, ds, hds, fun i hi x hx => ?_⟩
  obtain ⟨y, hy, e1, e2, e3⟩ := h2 i hi x hx
  exact ⟨y, hy, e1, fun n => ⟨fun hu => e2 n hu.1 hu.2, fun hu => e3 n hu⟩⟩

/-- **C95** (when it succeeds). It is enough that the bump is not 0, the tenors can be counted and their days increase, every instrument has
its npv, and every instrument other than stock and cash can be repriced with the dividends of each of its underlyings shifted in the window of
each tenor. -/
theorem C95_succeeds (g : EngCfg) (hg : OwnCodes g) (names : List String) (e : Eng) (hc : GoodDivs e.mkt) (hv : Valued g.insts e.results) (hb : g.conf.divBump ≠ 0)
    (hnames : ∀ u ∈ names, ∃ k, e.mkt.dividend u = some k) (ds : List DT) (hds : calcDates g.md e.mkt.w.date g.conf.divTenors = .ok ds)
    (hord : ∀ k, k < ds.length → WindowOk (startOf ds k) ds[k]?)
    (h : ∀ u ∈ names, ∀ i ∈ g.insts, i.typeName ≠ "Stock" ∧ i.typeName ≠ "Cash" → u ∈ i.unds → ∀ k, k < ds.length → ∀ m,
      DivShifted u (DayInTenor ds k) g.conf.divBump e.mkt m → ∃ up, g.npv i m = .ok up) :
    ∃ e', setDivS g names e = .ok e' := by
  unfold setDivS
  rw [hds, Res.bind_ok]
  refine eachName_total divSPart g e.mkt _ _ (fun u i npv y => ByTenor g (fun k m => DivShifted u (DayInTenor ds k) g.conf.divBump e.mkt m) g.conf.divBump 0.0001 ds
      (fun j => j ∈ g.insts ∧ u ∈ j.unds ∧ j.typeName ≠ "Stock" ∧ j.typeName ≠ "Cash") i npv y) _ e (fun u hu => ?_) rfl hv
  have hexc : ∀ i : Instr, i.typeName ∉ ["Stock", "Cash"] ↔ i.typeName ≠ "Stock" ∧ i.typeName ≠ "Cash" := fun i => by simp
  have hmem : ∀ i, i ∈ withUnderlying g.insts u ["Stock", "Cash"] ↔ i ∈ g.insts ∧ (u ∈ i.unds ∧ i.typeName ≠ "Stock" ∧ i.typeName ≠ "Cash") := fun i => by
    rw [withUnderlying_mem, hexc]
  refine ⟨_, rfl, fun i hi => ((hmem i).1 hi).1, fun hne f hf hfa hfv => ?_⟩
  have hAm : Among g f.action := by rw [hfa]; exact fun i hi => ((hmem i).1 hi).1
  have hty : ∀ i ∈ f.action, i.typeName ≠ "Stock" ∧ i.typeName ≠ "Cash" := by rw [hfa]; exact fun i hi => ((hmem i).1 hi).2.2
  obtain ⟨j, hj⟩ := hnames u hu
  obtain ⟨f', hf'⟩ := windowRound_total g hg (fun i b m => m.bumpDiv u (startOf ds i) ds[i]? b)
    (fun x v => { x with divS := x.divS.put u v }) g.conf.divBump 0.0001 hb ds e.mkt f hAm hf hfv (fun k hk => by
      obtain ⟨m, hm⟩ := bumpDiv_ok e.mkt hc u _ _ g.conf.divBump j hj (hord k hk)
      obtain ⟨s1, s2⟩ := bumpDiv_spec e.mkt m hc u _ _ _ hm
      refine ⟨m, hm, s2, fun i hi => ?_⟩
      rw [hfa] at hi
      exact h u hu i ((hmem i).1 hi).1 ((hmem i).1 hi).2.2 ((hmem i).1 hi).2.1 k hk m (divShifted_congr u _ _ _ _ _ (fun d => divWindow_tenor ds k d) s1))
  have := windowRound_spec g hg divSPart u _ (divS_put u) _ g.conf.divBump 0.0001 ds e.mkt (fun k m hk => (bumpDiv_spec e.mkt m hc u _ _ _ hk).2) f f' hAm hty hf hf'
  rw [hfa] at this
  refine ⟨f', hf', this.1, fun i hi => ?_, this.2.2⟩
  obtain ⟨x, y, a1, a2, a3, a4, a5⟩ := this.2.1 i hi
  refine ⟨x, y, a1, a2, a3, ?_, a5⟩
  refine byTenor_mono g _ _ _ _ _ _ _ _ _ _ hmem (fun k m hk hb => ?_) a4
  exact divShifted_congr u _ _ _ _ _ (fun d => divWindow_tenor ds k d) (bumpDiv_spec e.mkt m hc u _ _ _ hb).1

end Verif.Props
