import Verif.QL.Engine
import Verif.Props.Loading
/-!
# What the loops of the pricing engine do

Nothing here is a property of its own; see `Engine.lean` and the files after it.
-/
set_option autoImplicit false
namespace Verif.Props
open Verif Verif.QL Verif.Civil

/-- Specification: the instruments of an engine have different codes (the results are kept by code). -/
def OwnCodes (g : EngCfg) : Prop := (g.insts.map Instr.code).Nodup

/-- Specification: a selection of the engine's instruments. -/
def Among (g : EngCfg) (act : List Instr) : Prop := ∀ i ∈ act, i ∈ g.insts

theorem code_unique (g : EngCfg) (hg : OwnCodes g) (i j : Instr) (hi : i ∈ g.insts) (hj : j ∈ g.insts) (h : i.code = j.code) : i = j :=
  List.inj_on_of_nodup_map hg hi hj h

@[simp] theorem put_self {κ α : Type} [DecidableEq κ] (m : Map κ α) (k : κ) (v : α) : (m.put k v) k = some v := if_pos rfl

theorem put_other {κ α : Type} [DecidableEq κ] (m : Map κ α) (k k' : κ) (v : α) (h : k' ≠ k) : (m.put k v) k' = m k' := if_neg h

theorem put_put {κ α : Type} [DecidableEq κ] (m : Map κ α) (k : κ) (v w : α) : (m.put k v).put k w = m.put k w := by
  funext x
  by_cases h : x = k
  · subst h; rw [put_self, put_self]
  · rw [put_other _ _ _ _ h, put_other _ _ _ _ h, put_other _ _ _ _ h]

theorem put_same {κ α : Type} [DecidableEq κ] (m : Map κ α) (k : κ) (v : α) (h : m k = some v) : m.put k v = m := by
  funext x
  by_cases hx : x = k
  · subst hx; rw [put_self, h]
  · rw [put_other _ _ _ _ hx]

theorem orErr_eq {α : Type} (o : Option α) (x : α) : orErr o = .ok x ↔ o = some x := by
  cases o <;> simp [orErr]

theorem divK_eq (a b q : ℝ) : divK a b = .ok q ↔ b ≠ 0 ∧ q = a / b := by
  unfold divK
  by_cases h : b = 0
  · rw [if_pos h]; simp [h]
  · rw [if_neg h]
    constructor
    · intro e; exact ⟨h, (Except.ok.inj e).symm⟩
    · rintro ⟨_, rfl⟩; rfl

/-- `get_npvs`: the npv of every selected instrument, under its code. -/
theorem getNpvs_spec (g : EngCfg) (hg : OwnCodes g) (m : Mkt) : ∀ (act : List Instr) (acc r : Map String ℝ), Among g act →
    getNpvs g m act acc = .ok r →
    (∀ i ∈ act, ∃ x, g.npv i m = .ok x ∧ r i.code = some x) ∧ ∀ c, c ∉ act.map Instr.code → r c = acc c := by
  intro act
  induction act with
  | nil =>
    intro acc r _ h
    obtain rfl := Except.ok.inj h
    exact ⟨by simp, fun _ _ => rfl⟩
  | cons i l ih =>
    intro acc r ha h
    unfold getNpvs at h
    obtain ⟨x, hx, h⟩ := (bind_ok_iff _ _ _).1 h
    obtain ⟨h1, h2⟩ := ih _ _ (fun j hj => ha j (List.mem_cons_of_mem _ hj)) h
    refine ⟨?_, ?_⟩
    · intro j hj
      by_cases hm : j.code ∈ l.map Instr.code
      · obtain ⟨k, hk, e⟩ := List.mem_map.1 hm
        obtain rfl := code_unique g hg k j (ha k (List.mem_cons_of_mem _ hk)) (ha j hj) e
        exact h1 k hk
      · rcases List.mem_cons.1 hj with rfl | hj'
        · exact ⟨x, hx, by rw [h2 _ hm, put_self]⟩
        · exact absurd (List.mem_map_of_mem hj') hm
    · intro c hc
      simp only [List.map_cons, List.mem_cons, not_or] at hc
      rw [h2 c hc.2, put_other _ _ _ _ hc.1]

theorem getNpvs_total (g : EngCfg) (m : Mkt) : ∀ (act : List Instr) (acc : Map String ℝ), (∀ i ∈ act, ∃ x, g.npv i m = .ok x) →
    ∃ r, getNpvs g m act acc = .ok r := by
  intro act
  induction act with
  | nil => exact fun acc _ => ⟨acc, rfl⟩
  | cons i l ih =>
    intro acc h
    obtain ⟨x, hx⟩ := h i (by simp)
    obtain ⟨r, hr⟩ := ih (acc.put i.code x) fun j hj => h j (List.mem_cons_of_mem _ hj)
    exact ⟨r, by unfold getNpvs; rw [hx]; exact hr⟩

/-- A part of the results, with the values it holds for a name. -/
structure Part (α β : Type) where
  get : EResult → α
  set : EResult → α → EResult
  at_ : α → String → β
  get_set : ∀ x v, get (set x v) = v
  set_get : ∀ x, set x (get x) = x
  set_set : ∀ x v w, set (set x v) w = set x w
  npv_set : ∀ x v, (set x v).npv = x.npv
  flows_set : ∀ x v, (set x v).flows = x.flows
  notional_set : ∀ x v, (set x v).notional = x.notional

/-- The results of the selected instruments changed in one part, there only at the name `n`, and to a value `Q`; the others
did not change. -/
def Changed {α β : Type} (P : Part α β) (n : String) (act : List Instr) (Q : Instr → Option NpvResult → β → Prop) (r r' : Results) : Prop :=
  (∀ i ∈ act, ∃ x y, r i.code = some x ∧ r' i.code = some y ∧ y = P.set x (P.get y) ∧ Q i x.npv (P.at_ (P.get y) n) ∧
    ∀ k, k ≠ n → P.at_ (P.get y) k = P.at_ (P.get x) k) ∧
  ∀ c, c ∉ act.map Instr.code → r' c = r c

/-- The same for the names `ns`, each with its selection of instruments. -/
def ChangedAll {α β : Type} (P : Part α β) (insts : List Instr) (ns : List String) (sel : String → Instr → Prop)
    (Q : String → Instr → Option NpvResult → β → Prop) (r r' : Results) : Prop :=
  ∀ i ∈ insts, ∀ x, r i.code = some x → ∃ y, r' i.code = some y ∧ y = P.set x (P.get y) ∧
    (∀ n, n ∈ ns → sel n i → Q n i x.npv (P.at_ (P.get y) n)) ∧
    ∀ n, ¬ (n ∈ ns ∧ sel n i) → P.at_ (P.get y) n = P.at_ (P.get x) n

/-- The loop over the names. Each round leaves the market as it was. -/
theorem eachName_spec {α β : Type} (P : Part α β) (g : EngCfg) (hg : OwnCodes g) (M : Mkt) (pick : String → Res (List Instr))
    (round : String → Eng → Res Eng) (sel : String → Instr → Prop) (Q : String → Instr → Option NpvResult → β → Prop) :
    ∀ (ns : List String) (e e' : Eng), ns.Nodup →
    (∀ n ∈ ns, ∀ act, pick n = .ok act → ∀ i, i ∈ act ↔ i ∈ g.insts ∧ sel n i) →
    (∀ n ∈ ns, ∀ act, pick n = .ok act → act ≠ [] → ∀ e e' : Eng, e.mkt = M → e.action = act → round n e = .ok e' →
      e'.mkt = M ∧ Changed P n act (Q n) e.results e'.results) →
    e.mkt = M → eachName pick round ns e = .ok e' →
    e'.mkt = M ∧ ChangedAll P g.insts ns sel Q e.results e'.results ∧ (∀ c, c ∉ g.insts.map Instr.code → e'.results c = e.results c) := by
  intro ns
  induction ns with
  | nil =>
    intro e e' _ _ _ hm h
    obtain rfl := Except.ok.inj h
    exact ⟨hm, fun i _ x hx => ⟨x, hx, (P.set_get x).symm, by simp, fun _ _ => rfl⟩, fun _ _ => rfl⟩
  | cons n ns ih =>
    intro e e' hnd hsel hround hm h
    unfold eachName at h
    obtain ⟨act, hact, h⟩ := (bind_ok_iff _ _ _).1 h
    have hs := hsel n (by simp) act hact
    have hnd' := List.nodup_cons.1 hnd
    by_cases he : act.isEmpty
    · rw [if_pos he] at h
      obtain ⟨h1, h2, h3⟩ := ih { e with action := [] } e' hnd'.2 (fun k hk => hsel k (List.mem_cons_of_mem _ hk)) (fun k hk => hround k (List.mem_cons_of_mem _ hk)) hm h
      refine ⟨h1, ?_, h3⟩
      intro i hi x hx
      obtain ⟨y, hy, e1, e2, e3⟩ := h2 i hi x hx
      have hno : ¬ sel n i := fun hsi => by
        have := (hs i).2 ⟨hi, hsi⟩
        rw [List.isEmpty_iff.1 he] at this
        simp at this
      refine ⟨y, hy, e1, ?_, ?_⟩
      · intro k hk hki
        rcases List.mem_cons.1 hk with rfl | hk
        · exact absurd hki hno
        · exact e2 k hk hki
      · intro k hk
        exact e3 k fun hc => hk ⟨List.mem_cons_of_mem _ hc.1, hc.2⟩
    · rw [if_neg he] at h
      obtain ⟨e1, hr, h⟩ := (bind_ok_iff _ _ _).1 h
      have hne : act ≠ [] := fun hc => he (List.isEmpty_iff.2 hc)
      obtain ⟨m1, c1, c2⟩ := hround n (by simp) act hact hne { e with action := act } e1 hm rfl hr
      obtain ⟨h1, h2, h3⟩ := ih e1 e' hnd'.2 (fun k hk => hsel k (List.mem_cons_of_mem _ hk)) (fun k hk => hround k (List.mem_cons_of_mem _ hk)) m1 h
      have hcode : ∀ i ∈ g.insts, i.code ∈ act.map Instr.code → sel n i := by
        intro i hi hc
        obtain ⟨j, hj, ej⟩ := List.mem_map.1 hc
        obtain rfl := code_unique g hg j i ((hs j).1 hj).1 hi ej
        exact ((hs j).1 hj).2
      refine ⟨h1, ?_, ?_⟩
      · intro i hi x hx
        by_cases hsi : sel n i
        · obtain ⟨x', z, hx', hz, ez, qz, kz⟩ := c1 i ((hs i).2 ⟨hi, hsi⟩)
          rw [hx] at hx'
          obtain rfl := Option.some.inj hx'
          obtain ⟨y, hy, e1, e2, e3⟩ := h2 i hi z hz
          have hnp : z.npv = x.npv := by rw [ez, P.npv_set]
          refine ⟨y, hy, ?_, ?_, ?_⟩
          · rw [ez, P.set_set] at e1
            exact e1
          · intro k hk hki
            rcases List.mem_cons.1 hk with rfl | hk
            · rw [e3 k fun hc => hnd'.1 hc.1]; exact qz
            · rw [← hnp]; exact e2 k hk hki
          · intro k hk
            have hkn : k ≠ n := fun hc => hk ⟨by rw [hc]; simp, hc ▸ hsi⟩
            rw [e3 k fun hc => hk ⟨List.mem_cons_of_mem _ hc.1, hc.2⟩, kz k hkn]
        · have hz : e1.results i.code = some x := by rw [c2 _ fun hc => hsi (hcode i hi hc)]; exact hx
          obtain ⟨y, hy, e1, e2, e3⟩ := h2 i hi x hz
          refine ⟨y, hy, e1, ?_, ?_⟩
          · intro k hk hki
            rcases List.mem_cons.1 hk with rfl | hk
            · exact absurd hki hsi
            · exact e2 k hk hki
          · intro k hk
            exact e3 k fun hc => hk ⟨List.mem_cons_of_mem _ hc.1, hc.2⟩
      · intro c hc
        rw [h3 c hc, c2 c]
        intro hm'
        obtain ⟨j, hj, ej⟩ := List.mem_map.1 hm'
        exact hc (ej ▸ List.mem_map_of_mem ((hs j).1 hj).1)

/-- Specification: every instrument has a result with an npv. -/
def Valued (insts : List Instr) (r : Results) : Prop := ∀ i ∈ insts, ∃ x v, r i.code = some x ∧ x.npv = some v

theorem changedAll_valued {α β : Type} (P : Part α β) (insts : List Instr) (ns : List String) (sel : String → Instr → Prop)
    (Q : String → Instr → Option NpvResult → β → Prop) (r r' : Results) (h : ChangedAll P insts ns sel Q r r') (hv : Valued insts r) :
    Valued insts r' := by
  intro i hi
  obtain ⟨x, v, hx, hxv⟩ := hv i hi
  obtain ⟨y, hy, e, -, -⟩ := h i hi x hx
  exact ⟨y, v, hy, by rw [e, P.npv_set]; exact hxv⟩

theorem changed_valued {α β : Type} (P : Part α β) (g : EngCfg) (n : String) (act : List Instr)
    (Q : Instr → Option NpvResult → β → Prop) (r r' : Results) (h : Changed P n act Q r r') (hv : Valued g.insts r) : Valued g.insts r' := by
  intro i hi
  obtain ⟨x, v, hx, hxv⟩ := hv i hi
  by_cases hc : i.code ∈ act.map Instr.code
  · obtain ⟨j, hj, ej⟩ := List.mem_map.1 hc
    obtain ⟨x', y, hx', hy, e, -⟩ := h.1 j hj
    rw [ej, hx] at hx'
    obtain rfl := Option.some.inj hx'
    exact ⟨y, v, by rw [← ej]; exact hy, by rw [e, P.npv_set]; exact hxv⟩
  · exact ⟨x, v, by rw [h.2 _ hc]; exact hx, hxv⟩

/-- The loop over the names succeeds if every round does. -/
theorem eachName_total {α β : Type} (P : Part α β) (g : EngCfg) (M : Mkt) (pick : String → Res (List Instr)) (round : String → Eng → Res Eng)
    (Q : String → Instr → Option NpvResult → β → Prop) :
    ∀ (ns : List String) (e : Eng),
    (∀ n ∈ ns, ∃ act, pick n = .ok act ∧ Among g act ∧ (act ≠ [] → ∀ e : Eng, e.mkt = M → e.action = act → Valued g.insts e.results →
      ∃ e', round n e = .ok e' ∧ e'.mkt = M ∧ Changed P n act (Q n) e.results e'.results)) →
    e.mkt = M → Valued g.insts e.results → ∃ e', eachName pick round ns e = .ok e' := by
  intro ns
  induction ns with
  | nil => exact fun e _ _ _ => ⟨e, rfl⟩
  | cons n ns ih =>
    intro e h hm hv
    obtain ⟨act, hact, ham, hr⟩ := h n (by simp)
    unfold eachName
    rw [hact]
    simp only [Res.bind_ok]
    by_cases he : act.isEmpty
    · rw [if_pos he]
      exact ih _ (fun k hk => h k (List.mem_cons_of_mem _ hk)) hm hv
    · rw [if_neg he]
      obtain ⟨e1, h1, h2, h3⟩ := hr (fun hc => he (List.isEmpty_iff.2 hc)) { e with action := act } hm rfl hv
      rw [h1]
      exact ih e1 (fun k hk => h k (List.mem_cons_of_mem _ hk)) h2 (changed_valued P g n act (Q n) _ _ h3 hv)

/-! ### parts -/

def deltaPart : Part (Map String ℝ × Map String ℝ) (Option ℝ × Option ℝ) where
  get x := (x.delta, x.gamma)
  set x v := { x with delta := v.1, gamma := v.2 }
  at_ v k := (v.1 k, v.2 k)
  get_set _ _ := rfl
  set_get _ := rfl
  set_set _ _ _ := rfl
  npv_set _ _ := rfl
  flows_set _ _ := rfl
  notional_set _ _ := rfl

def vegaPart : Part (Map String ℝ) (Option ℝ) where
  get x := x.vega
  set x v := { x with vega := v }
  at_ v k := v k
  get_set _ _ := rfl
  set_get _ := rfl
  set_set _ _ _ := rfl
  npv_set _ _ := rfl
  flows_set _ _ := rfl
  notional_set _ _ := rfl

def rhoPart : Part (Map String ℝ) (Option ℝ) where
  get x := x.rho
  set x v := { x with rho := v }
  at_ v k := v k
  get_set _ _ := rfl
  set_get _ := rfl
  set_set _ _ _ := rfl
  npv_set _ _ := rfl
  flows_set _ _ := rfl
  notional_set _ _ := rfl

def divPart : Part (Map String ℝ) (Option ℝ) where
  get x := x.divDelta
  set x v := { x with divDelta := v }
  at_ v k := v k
  get_set _ _ := rfl
  set_get _ := rfl
  set_set _ _ _ := rfl
  npv_set _ _ := rfl
  flows_set _ _ := rfl
  notional_set _ _ := rfl

def vegaSPart : Part (Map String (List ℝ)) (Option (List ℝ)) where
  get x := x.vegaS
  set x v := { x with vegaS := v }
  at_ v k := v k
  get_set _ _ := rfl
  set_get _ := rfl
  set_set _ _ _ := rfl
  npv_set _ _ := rfl
  flows_set _ _ := rfl
  notional_set _ _ := rfl

def rhoSPart : Part (Map String (List ℝ)) (Option (List ℝ)) where
  get x := x.rhoS
  set x v := { x with rhoS := v }
  at_ v k := v k
  get_set _ _ := rfl
  set_get _ := rfl
  set_set _ _ _ := rfl
  npv_set _ _ := rfl
  flows_set _ _ := rfl
  notional_set _ _ := rfl

def divSPart : Part (Map String (List ℝ)) (Option (List ℝ)) where
  get x := x.divS
  set x v := { x with divS := v }
  at_ v k := v k
  get_set _ _ := rfl
  set_get _ := rfl
  set_set _ _ _ := rfl
  npv_set _ _ := rfl
  flows_set _ _ := rfl
  notional_set _ _ := rfl

/-! ### forward differences -/

/-- A setter of a value under a name. -/
structure PutAt {α : Type} (P : Part (Map String α) (Option α)) (n : String) (put : EResult → α → EResult) : Prop where
  eq : ∀ x v, put x v = P.set x ((P.get x).put n v)
  at_ : ∀ (m : Map String α) k, P.at_ m k = m k

theorem PutAt.twice {α : Type} {P : Part (Map String α) (Option α)} {n : String} {put : EResult → α → EResult} (h : PutAt P n put) (x : EResult) (v w : α) :
    put (put x v) w = put x w := by
  rw [h.eq, h.eq, h.eq, P.get_set, put_put, P.set_set]

theorem PutAt.npv {α : Type} {P : Part (Map String α) (Option α)} {n : String} {put : EResult → α → EResult} (h : PutAt P n put) (x : EResult) (v : α) :
    (put x v).npv = x.npv := by rw [h.eq, P.npv_set]

/-- After putting `v` under `n`: what `Changed` asks for. -/
theorem PutAt.changed {α : Type} {P : Part (Map String α) (Option α)} {n : String} {put : EResult → α → EResult} (h : PutAt P n put) (x : EResult) (v : α) :
    put x v = P.set x (P.get (put x v)) ∧ P.at_ (P.get (put x v)) n = some v ∧ ∀ k, k ≠ n → P.at_ (P.get (put x v)) k = P.at_ (P.get x) k := by
  rw [h.eq, P.get_set]
  refine ⟨rfl, by rw [h.at_, put_self], fun k hk => ?_⟩
  rw [h.at_, h.at_, put_other _ _ _ _ hk]

theorem diffLoop_spec (g : EngCfg) (hg : OwnCodes g) (P : Part (Map String ℝ) (Option ℝ)) (n : String) (put : EResult → ℝ → EResult) (hp : PutAt P n put)
    (ups : Map String ℝ) (b unit : ℝ) : ∀ (act : List Instr) (r r' : Results), Among g act → diffLoop put ups b unit act r = .ok r' →
    (∀ i ∈ act, ∃ x v up, r i.code = some x ∧ x.npv = some v ∧ ups i.code = some up ∧ b ≠ 0 ∧
      r' i.code = some (put x ((up - v.npv) / b * unit * i.notional))) ∧
    ∀ c, c ∉ act.map Instr.code → r' c = r c := by
  intro act
  induction act with
  | nil =>
    intro r r' _ h
    obtain rfl := Except.ok.inj h
    exact ⟨by simp, fun _ _ => rfl⟩
  | cons i l ih =>
    intro r r' ha h
    unfold diffLoop at h
    obtain ⟨up, hup, h⟩ := (bind_ok_iff _ _ _).1 h
    obtain ⟨x, hx, h⟩ := (bind_ok_iff _ _ _).1 h
    obtain ⟨v, hv, h⟩ := (bind_ok_iff _ _ _).1 h
    obtain ⟨q, hq, h⟩ := (bind_ok_iff _ _ _).1 h
    rw [orErr_eq] at hup hx hv
    obtain ⟨hb, rfl⟩ := (divK_eq _ _ _).1 hq
    obtain ⟨h1, h2⟩ := ih _ _ (fun j hj => ha j (List.mem_cons_of_mem _ hj)) h
    have hi : ∃ x v up, r i.code = some x ∧ x.npv = some v ∧ ups i.code = some up ∧ b ≠ 0 ∧
        r' i.code = some (put x ((up - v.npv) / b * unit * i.notional)) := by
      refine ⟨x, v, up, hx, hv, hup, hb, ?_⟩
      by_cases hm : i.code ∈ l.map Instr.code
      · obtain ⟨k, hk, ek⟩ := List.mem_map.1 hm
        obtain rfl := code_unique g hg k i (ha k (List.mem_cons_of_mem _ hk)) (ha i (by simp)) ek
        obtain ⟨x1, v1, up1, a1, a2, a3, -, a5⟩ := h1 k hk
        rw [put_self] at a1
        obtain rfl := Option.some.inj a1
        rw [hp.npv, hv] at a2
        obtain rfl := Option.some.inj a2
        rw [hup] at a3
        obtain rfl := Option.some.inj a3
        rw [a5, hp.twice]
      · rw [h2 _ hm, put_self]
    refine ⟨?_, ?_⟩
    · intro j hj
      by_cases hc : j.code = i.code
      · obtain rfl := code_unique g hg j i (ha j hj) (ha i (by simp)) hc
        exact hi
      · rcases List.mem_cons.1 hj with rfl | hj'
        · exact absurd rfl hc
        · obtain ⟨x1, v1, up1, a1, a2⟩ := h1 j hj'
          rw [put_other _ _ _ _ hc] at a1
          exact ⟨x1, v1, up1, a1, a2⟩
    · intro c hc
      simp only [List.map_cons, List.mem_cons, not_or] at hc
      rw [h2 c hc.2, put_other _ _ _ _ hc.1]

theorem diffLoop_total (P : Part (Map String ℝ) (Option ℝ)) (n : String) (put : EResult → ℝ → EResult) (hp : PutAt P n put)
    (ups : Map String ℝ) (b unit : ℝ) (hb : b ≠ 0) : ∀ (act : List Instr) (r : Results),
    (∀ i ∈ act, (∃ up, ups i.code = some up) ∧ ∃ x v, r i.code = some x ∧ x.npv = some v) → ∃ r', diffLoop put ups b unit act r = .ok r' := by
  intro act
  induction act with
  | nil => exact fun r _ => ⟨r, rfl⟩
  | cons i l ih =>
    intro r h
    obtain ⟨⟨up, hup⟩, x, v, hx, hv⟩ := h i (by simp)
    unfold diffLoop
    rw [hup, hx]
    simp only [orErr, Res.bind_ok]
    rw [hv]
    simp only [Res.bind_ok]
    rw [(divK_eq (up - v.npv) b _).2 ⟨hb, rfl⟩]
    refine ih _ fun j hj => ?_
    obtain ⟨h1, y, w, hy, hw⟩ := h j (List.mem_cons_of_mem _ hj)
    refine ⟨h1, ?_⟩
    by_cases hc : j.code = i.code
    · rw [hc, put_self]
      exact ⟨_, v, rfl, by rw [hp.npv]; exact hv⟩
    · rw [put_other _ _ _ _ hc]
      exact ⟨y, w, hy, hw⟩

/-- What a forward difference says: the instrument repriced in the bumped market, less its npv, per bump, times unit and
notional. -/
def ForwardDiff (g : EngCfg) (m : Mkt) (b unit : ℝ) (i : Instr) (npv : Option NpvResult) (y : Option ℝ) : Prop :=
  ∃ v up, npv = some v ∧ g.npv i m = .ok up ∧ b ≠ 0 ∧ y = some ((up - v.npv) / b * unit * i.notional)

theorem diffRound_spec (g : EngCfg) (hg : OwnCodes g) (P : Part (Map String ℝ) (Option ℝ)) (n : String) (put : EResult → ℝ → EResult) (hp : PutAt P n put)
    (bump undo : Mkt → Res Mkt) (b unit : ℝ) (M : Mkt) (hback : ∀ m, bump M = .ok m → undo m = .ok M) (e e' : Eng) (ha : Among g e.action)
    (hm : e.mkt = M) (h : diffRound g bump undo put b unit e = .ok e') :
    e'.mkt = M ∧ Changed P n e.action (fun i npv y => ∃ m, bump M = .ok m ∧ ForwardDiff g m b unit i npv y) e.results e'.results := by
  unfold diffRound at h
  obtain ⟨m, hbm, h⟩ := (bind_ok_iff _ _ _).1 h
  obtain ⟨ups, hups, h⟩ := (bind_ok_iff _ _ _).1 h
  obtain ⟨r, hr, h⟩ := (bind_ok_iff _ _ _).1 h
  obtain ⟨m', hu, h⟩ := (bind_ok_iff _ _ _).1 h
  obtain rfl := Except.ok.inj h
  rw [hm] at hbm
  rw [hback m hbm] at hu
  obtain rfl := Except.ok.inj hu
  obtain ⟨n1, -⟩ := getNpvs_spec g hg m e.action _ _ ha hups
  obtain ⟨d1, d2⟩ := diffLoop_spec g hg P n put hp ups b unit e.action _ _ ha hr
  refine ⟨rfl, ?_, d2⟩
  intro i hi
  obtain ⟨x, v, up, a1, a2, a3, a4, a5⟩ := d1 i hi
  obtain ⟨up', b1, b2⟩ := n1 i hi
  rw [b2] at a3
  obtain rfl := Option.some.inj a3
  obtain ⟨c1, c2, c3⟩ := hp.changed x ((up' - v.npv) / b * unit * i.notional)
  exact ⟨x, _, a1, a5, c1, ⟨m, hbm, v, up', a2, b1, a4, c2⟩, c3⟩

theorem diffRound_total (g : EngCfg) (hg : OwnCodes g) (P : Part (Map String ℝ) (Option ℝ)) (n : String) (put : EResult → ℝ → EResult) (hp : PutAt P n put)
    (bump undo : Mkt → Res Mkt) (b unit : ℝ) (hb : b ≠ 0) (M m : Mkt) (hbump : bump M = .ok m) (hback : undo m = .ok M) (e : Eng) (ha : Among g e.action)
    (hm : e.mkt = M) (hn : ∀ i ∈ e.action, ∃ x, g.npv i m = .ok x) (hv : Valued g.insts e.results) :
    ∃ e', diffRound g bump undo put b unit e = .ok e' := by
  unfold diffRound
  rw [hm, hbump]
  simp only [Res.bind_ok]
  obtain ⟨ups, hups⟩ := getNpvs_total g m e.action (fun _ => none) hn
  rw [hups]
  simp only [Res.bind_ok]
  obtain ⟨n1, -⟩ := getNpvs_spec g hg m e.action _ _ ha hups
  obtain ⟨r, hr⟩ := diffLoop_total P n put hp ups b unit hb e.action e.results fun i hi => by
    obtain ⟨x, -, hx⟩ := n1 i hi
    exact ⟨⟨x, hx⟩, hv i (ha i hi)⟩
  rw [hr]
  simp only [Res.bind_ok]
  rw [hback]
  exact ⟨_, rfl⟩

/-- A greek by forward differences for all names. -/
theorem forward_spec (g : EngCfg) (hg : OwnCodes g) (P : Part (Map String ℝ) (Option ℝ)) (put : String → EResult → ℝ → EResult)
    (hp : ∀ n, PutAt P n (put n)) (bump undo : String → Mkt → Res Mkt) (b unit : ℝ) (M : Mkt)
    (pick : String → Res (List Instr)) (sel : String → Instr → Prop) (ns : List String) (hns : ns.Nodup)
    (hpick : ∀ n ∈ ns, ∀ act, pick n = .ok act → ∀ i, i ∈ act ↔ i ∈ g.insts ∧ sel n i)
    (hback : ∀ n ∈ ns, ∀ m, bump n M = .ok m → undo n m = .ok M) (e e' : Eng) (hm : e.mkt = M)
    (h : eachName pick (fun n => diffRound g (bump n) (undo n) (put n) b unit) ns e = .ok e') :
    e'.mkt = M ∧ ChangedAll P g.insts ns sel (fun n i npv y => ∃ m, bump n M = .ok m ∧ ForwardDiff g m b unit i npv y) e.results e'.results ∧
    ∀ c, c ∉ g.insts.map Instr.code → e'.results c = e.results c := by
  refine eachName_spec P g hg M pick _ sel _ ns e e' hns hpick (fun n hn act hact _ f f' hf hfa hr => ?_) hm h
  have := diffRound_spec g hg P n (put n) (hp n) (bump n) (undo n) b unit M (hback n hn) f f'
    (by rw [hfa]; exact fun i hi => ((hpick n hn act hact i).1 hi).1) hf hr
  rw [hfa] at this
  exact this

theorem forward_total (g : EngCfg) (hg : OwnCodes g) (P : Part (Map String ℝ) (Option ℝ)) (put : String → EResult → ℝ → EResult)
    (hp : ∀ n, PutAt P n (put n)) (bump undo : String → Mkt → Res Mkt) (b unit : ℝ) (hb : b ≠ 0) (M : Mkt)
    (pick : String → Res (List Instr)) (ns : List String)
    (hpick : ∀ n ∈ ns, ∃ act, pick n = .ok act ∧ Among g act ∧ (act ≠ [] → ∃ m, bump n M = .ok m ∧ undo n m = .ok M ∧ ∀ i ∈ act, ∃ x, g.npv i m = .ok x))
    (e : Eng) (hm : e.mkt = M) (hv : Valued g.insts e.results) :
    ∃ e', eachName pick (fun n => diffRound g (bump n) (undo n) (put n) b unit) ns e = .ok e' := by
  refine eachName_total P g M pick _ (fun n i npv y => ∃ m, bump n M = .ok m ∧ ForwardDiff g m b unit i npv y) ns e (fun n hn => ?_) hm hv
  obtain ⟨act, hact, ham, hr⟩ := hpick n hn
  refine ⟨act, hact, ham, fun hne f hf hfa hfv => ?_⟩
  obtain ⟨m, h1, h2, h3⟩ := hr hne
  have hfam : Among g f.action := by rw [hfa]; exact ham
  obtain ⟨f', hf'⟩ := diffRound_total g hg P n (put n) (hp n) (bump n) (undo n) b unit hb M m h1 h2 f hfam hf (by rw [hfa]; exact h3) hfv
  have := diffRound_spec g hg P n (put n) (hp n) (bump n) (undo n) b unit M (fun m' hm' => by rw [h1] at hm'; obtain rfl := Except.ok.inj hm'; exact h2) f f' hfam hf hf'
  rw [hfa] at this
  exact ⟨f', hf', this⟩

end Verif.Props
