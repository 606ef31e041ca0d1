import Verif.QL.Config
import Verif.Float.Lemmas
/-!
# C146: calculation configurations
-/
set_option autoImplicit false
namespace Verif.Props
open Verif Verif.QL Verif.Float

/-- The argument of the last of the calls that `pick` takes one from; `init` if there is none. -/
def lastGiven {σ β : Type} (pick : σ → Option β) (init : β) (l : List σ) : β := ((l.filterMap pick).getLast?).getD init

theorem lastGiven_cons {σ β : Type} (pick : σ → Option β) (init : β) (s : σ) (l : List σ) :
    lastGiven pick init (s :: l) = lastGiven pick ((pick s).getD init) l := by
  unfold lastGiven
  cases h : pick s with
  | none => rw [List.filterMap_cons_none h]; rfl
  | some b =>
    rw [List.filterMap_cons_some h, List.getLast?_cons]
    cases (List.filterMap pick l).getLast? <;> rfl

theorem calls_field {α β : Type} (f : FullConf α → β) (pick : ConfCall α → Option β) (h : ∀ c s, f (c.call s) = (pick s).getD (f c))
    (l : List (ConfCall α)) : ∀ c : FullConf α, f (c.calls l) = lastGiven pick (f c) l := by
  induction l with
  | nil => intro c; rfl
  | cons s l ih => intro c; rw [lastGiven_cons, ← h c s]; exact ih _

/-- What a configuration holds after the calls `l`: for everything that has a setter the argument of the last call of that setter,
else what was there. Nothing sets the npv switch, the exposure switch and the dividend bump. -/
structure AfterCalls {α : Type} (c : FullConf α) (l : List (ConfCall α)) (d : FullConf α) : Prop where
  npv : d.npv = c.npv
  exposure : d.exposure = c.exposure
  divBump : d.divBump = c.divBump
  thetaDay : d.thetaDay = lastGiven (fun | .thetaDay x => some x | _ => none) c.thetaDay l
  delta : d.delta = lastGiven (fun | .delta x => some x | _ => none) c.delta l
  gamma : d.gamma = lastGiven (fun | .gamma x => some x | _ => none) c.gamma l
  vega : d.vega = lastGiven (fun | .vega x => some x | _ => none) c.vega l
  vegaS : d.vegaS = lastGiven (fun | .vegaS x => some x | _ => none) c.vegaS l
  vegaM : d.vegaM = lastGiven (fun | .vegaM x => some x | _ => none) c.vegaM l
  theta : d.theta = lastGiven (fun | .theta x => some x | _ => none) c.theta l
  rho : d.rho = lastGiven (fun | .rho x => some x | _ => none) c.rho l
  rhoS : d.rhoS = lastGiven (fun | .rhoS x => some x | _ => none) c.rhoS l
  sticky : d.sticky = lastGiven (fun | .sticky x => some x | _ => none) c.sticky l
  divDelta : d.divDelta = lastGiven (fun | .divDelta x => some x | _ => none) c.divDelta l
  divS : d.divS = lastGiven (fun | .divS x => some x | _ => none) c.divS l
  deltaRatio : d.deltaRatio = lastGiven (fun | .deltaRatio x => some x | _ => none) c.deltaRatio l
  gammaRatio : d.gammaRatio = lastGiven (fun | .gammaRatio x => some x | _ => none) c.gammaRatio l
  vegaBump : d.vegaBump = lastGiven (fun | .vegaBump x => some x | _ => none) c.vegaBump l
  vegaSBump : d.vegaSBump = lastGiven (fun | .vegaSBump x => some x | _ => none) c.vegaSBump l
  vegaMBump : d.vegaMBump = lastGiven (fun | .vegaMBump x => some x | _ => none) c.vegaMBump l
  rhoBump : d.rhoBump = lastGiven (fun | .rhoBump x => some x | _ => none) c.rhoBump l
  rhoTenors : d.rhoTenors = lastGiven (fun | .rhoTenors x => some x | _ => none) c.rhoTenors l
  vegaTenors : d.vegaTenors = lastGiven (fun | .vegaTenors x => some x | _ => none) c.vegaTenors l
  divTenors : d.divTenors = lastGiven (fun | .divTenors x => some x | _ => none) c.divTenors l
  moneyness : d.moneyness = lastGiven (fun | .moneyness x => some x | _ => none) c.moneyness l
  method : d.method = lastGiven (fun | .method x => some x | _ => none) c.method l
  lv : d.lv = lastGiven (fun | .lv x => some x | _ => none) c.lv l

/-- **C146** (histories). After any chain of calls every setting is the one given last, and the rest is untouched. -/
theorem C146_calls {α : Type} (c : FullConf α) (l : List (ConfCall α)) : AfterCalls c l (c.calls l) := by
  have keep : ∀ {β : Type} (f : FullConf α → β), (∀ c s, f (c.call s) = f c) → f (c.calls l) = f c := by
    intro β f h
    have h1 := calls_field f (fun _ => none) h l c
    rw [h1]; unfold lastGiven
    have : List.filterMap (fun _ : ConfCall α => (none : Option β)) l = [] := by simp
    rw [this]; rfl
  constructor
  iterate 3 exact keep _ (by intro c s; cases s <;> rfl)
  all_goals exact calls_field _ _ (by intro c s; cases s <;> rfl) l c

/-- A bump the constructor lets pass: any number above zero, infinity, and not-a-number. -/
def PassesBump (x : Fl) : Prop := x = .nan ∨ x = .inf false ∨ ∃ s v, x = .fin s v ∧ 0 < v

theorem not_le_zero (x : Fl) : ¬ x ≤ f32.lit 0 ↔ PassesBump x := by
  have hz : f32.lit 0 = .fin false 0 := by decide +kernel
  rw [hz]; unfold PassesBump
  show ¬ (x.le (.fin false 0) = true) ↔ _
  cases x with
  | nan => simp [Fl.le, Fl.lt, Fl.beq]
  | inf s => cases s <;> simp [Fl.le, Fl.lt, Fl.beq]
  | fin s v =>
    simp only [Fl.le, Fl.lt, Fl.beq, Bool.or_eq_true, decide_eq_true_eq, reduceCtorEq, false_or, Fl.fin.injEq]
    constructor
    · intro h; exact ⟨s, v, ⟨rfl, rfl⟩, by rw [not_or, not_lt] at h; exact lt_of_le_of_ne h.1 (Ne.symm h.2)⟩
    · rintro ⟨s', v', ⟨rfl, rfl⟩, h⟩ hc
      rcases hc with hc | hc
      · exact absurd hc (not_lt.2 h.le)
      · exact absurd hc h.ne'

/-- What the constructor asks for. -/
structure Accepts (c : FullConf Fl) : Prop where
  both : c.delta = c.gamma
  day : 0 < c.thetaDay
  deltaRatio : PassesBump c.deltaRatio
  gammaRatio : PassesBump c.gammaRatio
  vegaBump : PassesBump c.vegaBump
  vegaSBump : PassesBump c.vegaSBump
  vegaMBump : PassesBump c.vegaMBump
  rhoBump : PassesBump c.rhoBump
  divBump : PassesBump c.divBump

/-- **C146** (constructor). It accepts exactly the arguments with delta and gamma switched together, a positive number of days and
no bump at or below zero, and returns them unchanged; everything else is an error. -/
theorem C146_new (c : FullConf Fl) : (Accepts c → c.new = .ok c) ∧ (¬ Accepts c → c.new = .error .err) := by
  unfold FullConf.new
  constructor
  · rintro ⟨a, b, c1, c2, c3, c4, c5, c6, c7⟩
    rw [if_neg (not_not.2 a), if_neg ((not_le_zero _).2 c1), if_neg ((not_le_zero _).2 c2), if_neg ((not_le_zero _).2 c6),
      if_neg ((not_le_zero _).2 c3), if_neg ((not_le_zero _).2 c4), if_neg ((not_le_zero _).2 c5), if_neg (not_le.2 b),
      if_neg ((not_le_zero _).2 c7)]
  · intro h
    by_cases a : c.delta = c.gamma
    swap; · rw [if_pos a]
    rw [if_neg (not_not.2 a)]
    by_cases c1 : c.deltaRatio ≤ f32.lit 0
    · rw [if_pos c1]
    rw [if_neg c1]
    by_cases c2 : c.gammaRatio ≤ f32.lit 0
    · rw [if_pos c2]
    rw [if_neg c2]
    by_cases c6 : c.rhoBump ≤ f32.lit 0
    · rw [if_pos c6]
    rw [if_neg c6]
    by_cases c3 : c.vegaBump ≤ f32.lit 0
    · rw [if_pos c3]
    rw [if_neg c3]
    by_cases c4 : c.vegaSBump ≤ f32.lit 0
    · rw [if_pos c4]
    rw [if_neg c4]
    by_cases c5 : c.vegaMBump ≤ f32.lit 0
    · rw [if_pos c5]
    rw [if_neg c5]
    by_cases b : c.thetaDay ≤ 0
    · rw [if_pos b]
    rw [if_neg b]
    by_cases c7 : c.divBump ≤ f32.lit 0
    · rw [if_pos c7]
    exact absurd ⟨a, not_le.1 b, (not_le_zero _).1 c1, (not_le_zero _).1 c2, (not_le_zero _).1 c3, (not_le_zero _).1 c4,
      (not_le_zero _).1 c5, (not_le_zero _).1 c6, (not_le_zero _).1 c7⟩ h

/-- **C146** (the default). The default configuration is one the constructor accepts. -/
theorem C146_default (m : List Fl) : (FullConf.default m).new = .ok (FullConf.default m) := by
  have h1 : PassesBump (f32.lit (1 / 100)) := (not_le_zero _).1 (by decide +kernel)
  have h2 : PassesBump (f32.lit (1 / 1000)) := (not_le_zero _).1 (by decide +kernel)
  have h3 : PassesBump (f32.lit (1 / 10000)) := (not_le_zero _).1 (by decide +kernel)
  exact (C146_new _).1 ⟨rfl, Int.one_pos, h1, h1, h1, h1, h2, h3, h3⟩

/-- The calls that keep what the constructor asked for. -/
def KeepsAccepted : ConfCall Fl → Prop
  | .thetaDay n => 0 < n
  | .deltaRatio x | .gammaRatio x | .vegaBump x | .vegaSBump x | .vegaMBump x | .rhoBump x => PassesBump x
  | _ => True

theorem lastGiven_all {σ β : Type} (P : β → Prop) (pick : σ → Option β) (init : β) (l : List σ) (hi : P init)
    (h : ∀ s ∈ l, ∀ b, pick s = some b → P b) : P (lastGiven pick init l) := by
  unfold lastGiven
  cases hl : (l.filterMap pick).getLast? with
  | none => exact hi
  | some b =>
    obtain ⟨s, hs, hb⟩ := List.mem_filterMap.1 (List.mem_of_getLast? hl)
    exact h s hs b hb

/-- **C146** (staying acceptable). A chain of calls leads from an acceptable configuration to an acceptable one if no call gives a
bump at or below zero or a non-positive number of days, and delta and gamma end up the same. -/
theorem C146_stays (c : FullConf Fl) (l : List (ConfCall Fl)) (hc : Accepts c) (hl : ∀ s ∈ l, KeepsAccepted s)
    (hdg : (c.calls l).delta = (c.calls l).gamma) : (c.calls l).new = .ok (c.calls l) := by
  have h := C146_calls c l
  refine (C146_new _).1 ⟨?_, ?_, ?_, ?_, ?_, ?_, ?_, ?_, ?_⟩
  · exact hdg
  · rw [h.thetaDay]
    refine lastGiven_all (fun n : Int => 0 < n) _ _ _ hc.day fun s hs b hb => ?_
    have := hl s hs
    cases s <;> simp_all [KeepsAccepted]
  · rw [h.deltaRatio]
    refine lastGiven_all PassesBump _ _ _ hc.deltaRatio fun s hs b hb => ?_
    have := hl s hs
    cases s <;> simp_all [KeepsAccepted]
  · rw [h.gammaRatio]
    refine lastGiven_all PassesBump _ _ _ hc.gammaRatio fun s hs b hb => ?_
    have := hl s hs
    cases s <;> simp_all [KeepsAccepted]
  · rw [h.vegaBump]
    refine lastGiven_all PassesBump _ _ _ hc.vegaBump fun s hs b hb => ?_
    have := hl s hs
    cases s <;> simp_all [KeepsAccepted]
  · rw [h.vegaSBump]
    refine lastGiven_all PassesBump _ _ _ hc.vegaSBump fun s hs b hb => ?_
    have := hl s hs
    cases s <;> simp_all [KeepsAccepted]
  · rw [h.vegaMBump]
    refine lastGiven_all PassesBump _ _ _ hc.vegaMBump fun s hs b hb => ?_
    have := hl s hs
    cases s <;> simp_all [KeepsAccepted]
  · rw [h.rhoBump]
    refine lastGiven_all PassesBump _ _ _ hc.rhoBump fun s hs b hb => ?_
    have := hl s hs
    cases s <;> simp_all [KeepsAccepted]
  · rw [h.divBump]; exact hc.divBump

/-- **C146** (no check in the setters). From the default, one call of a setter is enough for a configuration the constructor would have
refused: delta without gamma, a bump of zero, a day count of zero. -/
theorem C146_unchecked (m : List Fl) (s : ConfCall Fl)
    (hs : s ∈ [.delta true, .gamma true, .rhoBump (f32.lit 0), .vegaBump (f32.lit (-1)), .deltaRatio (f32.lit 0), .thetaDay 0]) :
    ((FullConf.default m).calls [s]).new = .error .err := by
  refine (C146_new _).2 fun h => ?_
  have hz : ¬ PassesBump (f32.lit 0) := fun hp => (not_le_zero _).2 hp (by decide +kernel)
  have hn : ¬ PassesBump (f32.lit (-1)) := fun hp => (not_le_zero _).2 hp (by decide +kernel)
  simp only [List.mem_cons, List.not_mem_nil, or_false] at hs
  rcases hs with rfl | rfl | rfl | rfl | rfl | rfl
  · exact absurd h.both (by simp [FullConf.calls, FullConf.call, FullConf.default])
  · exact absurd h.both (by simp [FullConf.calls, FullConf.call, FullConf.default])
  · exact hz h.rhoBump
  · exact hn h.vegaBump
  · exact hz h.deltaRatio
  · exact absurd h.day (by simp [FullConf.calls, FullConf.call])

/-- The calls that matter to a calculation of an engine whose pricers and surfaces are there. -/
def Counts : ConfCall ℝ → Bool
  | .gamma _ | .gammaRatio _ | .vegaMBump _ | .sticky _ | .lv _ | .method _ => false
  | _ => true

theorem engine_counts (l : List (ConfCall ℝ)) : ∀ (c d : FullConf ℝ), c.engine = d.engine → (c.calls l).engine = (d.calls (l.filter Counts)).engine := by
  induction l with
  | nil => intro c d h; exact h
  | cons s l ih =>
    intro c d h
    have hb : Counts s = false → (c.call s).engine = c.engine := by cases s <;> simp [Counts, FullConf.call, FullConf.engine]
    have hg : (c.call s).engine = (d.call s).engine := by
      simp only [FullConf.engine, CalcConf.mk.injEq] at h
      obtain ⟨h1, h2, h3, h4, h5, h6, h7, h8, h9, h10, h11, h12, h13, h14, h15, h16, h17, h18, h19, h20, h21⟩ := h
      cases s <;> simp only [FullConf.call, FullConf.engine, h1, h2, h3, h4, h5, h6, h7, h8, h9, h10, h11, h12, h13, h14, h15, h16,
        h17, h18, h19, h20, h21]
    cases hs : Counts s with
    | false => rw [List.filter_cons_of_neg (by simp [hs])]; exact ih _ _ ((hb hs).trans h)
    | true => rw [List.filter_cons_of_pos hs]; exact ih _ _ hg

/-- **C146** (settings without effect). What an engine calculates does not depend on the switch and the bump for gamma nor on the bump
for the vega matrix: leaving out those calls (and the ones that only count while the engine is built) changes no result. -/
theorem C146_unused (g : EngCfg) (names : List String) (e : Eng) (c : FullConf ℝ) (l : List (ConfCall ℝ)) :
    calculate { g with conf := (c.calls l).engine } names e = calculate { g with conf := (c.calls (l.filter Counts)).engine } names e := by
  rw [engine_counts l c c rfl]

example : ∃ l : List (ConfCall Fl), (∀ s ∈ l, KeepsAccepted s) ∧ l.length = 3 ∧
    ((FullConf.default []).calls l).delta = true ∧ ((FullConf.default []).calls l).new = .ok ((FullConf.default []).calls l) := by
  have ha : Accepts (FullConf.default []) := by
    by_contra h
    have h1 := (C146_new _).2 h
    rw [C146_default] at h1; cases h1
  have hk : ∀ s ∈ ([.delta true, .gamma true, .rhoBump (f32.lit 1)] : List (ConfCall Fl)), KeepsAccepted s := by
    intro s hs
    simp only [List.mem_cons, List.not_mem_nil, or_false] at hs
    rcases hs with rfl | rfl | rfl
    · trivial
    · trivial
    · exact (not_le_zero _).1 (by decide +kernel)
  exact ⟨_, hk, rfl, rfl, C146_stays _ _ ha hk rfl⟩

end Verif.Props
