import Verif.TE.Stamp
import Mathlib.Order.Monotone.Basic
/-!
# C168, C169: time stamps of a process and of a thread
-/
set_option autoImplicit false
namespace Verif.Props
open Verif Verif.TE.Stamp

/-! ## Specification -/

/-- Nothing overflows: for all counter differences up to `R` and all system times that can be read -/
def StampFits (W : Nat → Option Nat → Prop) (ns : Nat → Nat) (R : Nat) : Prop := ∀ d ≤ R, ∀ raw v, W raw (some v) → ns d + (v + 10) < 2 ^ 64

/-- The system time runs with the counter (in nanoseconds) and is never set. -/
def InStep (B : Nat) (raw : Nat) (sys : Option Nat) : Prop := sys = some (B + raw)

/-! ## The invariant -/

structure StampInv (W : Nat → Option Nat → Prop) (m : Mode) (ns : Nat → Nat) (es : List Ev) (s : State) : Prop where
  small : s.raw < U64
  world : W s.raw s.sys
  anchor : ∀ a, s.anchor = some a → a ≤ s.raw
  base : ∀ b, s.base = some b → ∃ a raw sys, s.anchor = some a ∧ a ≤ raw ∧ W raw sys ∧ b = sysInit m sys
  called : ∀ t c, s.pc t = .called c → c ≤ s.raw
  anchored : ∀ t c, s.pc t = .anchored c → c ≤ s.raw ∧ ∃ a, s.anchor = some a
  read : ∀ t c r, s.pc t = .read c r → c ≤ r ∧ r ≤ s.raw ∧ ∃ a, s.anchor = some a ∧ a ≤ r
  rets : ∀ t c q x, Ev.ret t c q x ∈ es → ∃ a w r, s.anchor = some a ∧ s.base = some (some w) ∧ a ≤ r ∧ c ≤ r ∧ r ≤ q ∧ q ≤ s.raw ∧ value m ns a r w = .ok x
  fails : ∀ t c q, Ev.fail t c q ∈ es → ∃ a, s.anchor = some a ∧
    (s.base = some none ∨ ∃ w r e, s.base = some (some w) ∧ a ≤ r ∧ r ≤ s.raw ∧ value m ns a r w = .error e)

theorem stamp_inv {W : Nat → Option Nat → Prop} {m : Mode} {ns : Nat → Nat} {es : List Ev} {s : State} (h : Run W m ns es s) : StampInv W m ns es s := by
  induction h with
  | start raw sys hr hw =>
    refine ⟨hr, hw, ?_, ?_, ?_, ?_, ?_, ?_, ?_⟩ <;> simp [TE.Stamp.start]
  | @step es es' s s' hrun hst ih =>
    obtain ⟨i1, iw, i2, i3, i4, i5, i6, i7, i8⟩ := ih
    cases hst with
    | tick raw sys h1 h2 h3 =>
      rw [List.append_nil]
      refine ⟨h2, h3, fun a ha => le_trans (i2 a ha) h1, i3, fun t c ht => le_trans (i4 t c ht) h1, fun t c ht => ?_, fun t c r ht => ?_, fun t c q x hx => ?_, fun t c q hx => ?_⟩
      · exact ⟨le_trans (i5 t c ht).1 h1, (i5 t c ht).2⟩
      · obtain ⟨a1, a2, a3⟩ := i6 t c r ht
        exact ⟨a1, le_trans a2 h1, a3⟩
      · obtain ⟨a, w, r, b1, b2, b3, b4, b5, b6, b7⟩ := i7 t c q x hx
        exact ⟨a, w, r, b1, b2, b3, b4, b5, le_trans b6 h1, b7⟩
      · obtain ⟨a, b1, b2 | ⟨w, r, e, b2, b3, b4, b5⟩⟩ := i8 t c q hx
        · exact ⟨a, b1, Or.inl b2⟩
        · exact ⟨a, b1, Or.inr ⟨w, r, e, b2, b3, le_trans b4 h1, b5⟩⟩
    | call t ht =>
      rw [List.append_nil]
      refine ⟨i1, iw, i2, i3, fun u c hu => ?_, fun u c hu => ?_, fun u c r hu => ?_, i7, i8⟩ <;> (simp only [State.at] at hu; split at hu)
      · cases hu; exact le_refl _
      · exact i4 u c hu
      · cases hu
      · exact i5 u c hu
      · cases hu
      · exact i6 u c r hu
    | anchor t c ht =>
      rw [List.append_nil]
      have hkeep : ∀ a, s.anchor = some a → some (s.anchor.getD s.raw) = some a := fun a ha => by rw [ha]; rfl
      refine ⟨i1, iw, fun a ha => ?_, fun b hb => ?_, fun u c' hu => ?_, fun u c' hu => ?_, fun u c' r hu => ?_, fun u c q x hx => ?_, fun u c q hx => ?_⟩
      · dsimp only at ha
        cases hs : s.anchor with
        | none => rw [hs] at ha; cases ha; exact le_refl _
        | some a' => rw [hs] at ha; cases ha; exact i2 a' hs
      · obtain ⟨a, raw, sys, b1, b2⟩ := i3 b hb
        exact ⟨a, raw, sys, hkeep a b1, b2⟩
      · simp only [State.at] at hu
        split at hu
        · cases hu
        · exact i4 u c' hu
      · simp only [State.at] at hu
        split at hu
        · cases hu
          exact ⟨i4 t _ ht, _, rfl⟩
        · exact ⟨(i5 u c' hu).1, _, rfl⟩
      · simp only [State.at] at hu
        split at hu
        · cases hu
        · obtain ⟨a1, a2, a, a3, a4⟩ := i6 u c' r hu
          exact ⟨a1, a2, a, hkeep a a3, a4⟩
      · obtain ⟨a, w, r, b1, b2⟩ := i7 u c q x hx
        exact ⟨a, w, r, hkeep a b1, b2⟩
      · obtain ⟨a, b1, b2⟩ := i8 u c q hx
        exact ⟨a, hkeep a b1, b2⟩
    | read t c ht =>
      rw [List.append_nil]
      refine ⟨i1, iw, i2, i3, fun u c' hu => ?_, fun u c' hu => ?_, fun u c' r hu => ?_, i7, i8⟩ <;> (simp only [State.at] at hu; split at hu)
      · cases hu
      · exact i4 u c' hu
      · cases hu
      · exact i5 u c' hu
      · cases hu
        obtain ⟨a1, a, a2⟩ := i5 t _ ht
        exact ⟨a1, le_refl _, a, a2, i2 a a2⟩
      · exact i6 u c' r hu
    | stamp t c r a ht ha =>
      obtain ⟨d1, d2, a', d3, d4⟩ := i6 t c r ht
      rw [ha] at d3
      cases d3
      have hbase : ∃ raw sys, a ≤ raw ∧ W raw sys ∧ s.base.getD (sysInit m s.sys) = sysInit m sys := by
        cases hs : s.base with
        | none => exact ⟨s.raw, s.sys, i2 a ha, iw, rfl⟩
        | some b =>
          obtain ⟨a', raw, sys, b1, b2, b3, b4⟩ := i3 b hs
          rw [ha] at b1
          cases b1
          exact ⟨raw, sys, b2, b3, b4⟩
      have hkeep : ∀ b, s.base = some b → some (s.base.getD (sysInit m s.sys)) = some b := fun b hb => by rw [hb]; rfl
      refine ⟨i1, iw, i2, fun b hb => ?_, fun u c' hu => ?_, fun u c' hu => ?_, fun u c' r hu => ?_, fun u c' q x hx => ?_, fun u c' q hx => ?_⟩
      · cases hb
        obtain ⟨raw, sys, e1, e2, e3⟩ := hbase
        exact ⟨a, raw, sys, ha, e1, e2, e3⟩
      · simp only [State.at] at hu
        split at hu
        · cases hu
        · exact i4 u c' hu
      · simp only [State.at] at hu
        split at hu
        · cases hu
        · exact i5 u c' hu
      · simp only [State.at] at hu
        split at hu
        · cases hu
        · exact i6 u c' r hu
      · rcases List.mem_append.1 hx with hx | hx
        · obtain ⟨a, w, r, b1, b2, b3⟩ := i7 u c' q x hx
          exact ⟨a, w, r, b1, hkeep _ b2, b3⟩
        · rw [List.mem_singleton] at hx
          unfold outcome at hx
          generalize hg : s.base.getD (sysInit m s.sys) = b at hx
          cases b with
          | none => cases hx
          | some w =>
            dsimp only at hx
            cases hv : value m ns a r w with
            | error e => rw [hv] at hx; cases hx
            | ok y =>
              rw [hv] at hx
              cases hx
              exact ⟨a, w, r, ha, rfl, d4, d1, d2, le_refl _, hv⟩
      · rcases List.mem_append.1 hx with hx | hx
        · obtain ⟨a, b1, b2 | ⟨w, r, e, b2, b3⟩⟩ := i8 u c' q hx
          · exact ⟨a, b1, Or.inl (hkeep _ b2)⟩
          · exact ⟨a, b1, Or.inr ⟨w, r, e, hkeep _ b2, b3⟩⟩
        · rw [List.mem_singleton] at hx
          refine ⟨a, ha, ?_⟩
          unfold outcome at hx
          generalize hg : s.base.getD (sysInit m s.sys) = b at hx
          cases b with
          | none => exact Or.inl rfl
          | some w =>
            dsimp only at hx
            cases hv : value m ns a r w with
            | ok y => rw [hv] at hx; cases hx
            | error e => exact Or.inr ⟨w, r, e, rfl, d4, d2, hv⟩

/-! ## Values -/

theorem wrap_sub {a r : Nat} (h : a ≤ r) (hr : r < U64) : (r + U64 - a) % U64 = r - a := by
  rw [show r + U64 - a = (r - a) + U64 by omega, Nat.add_mod_right, Nat.mod_eq_of_lt (by omega)]

theorem value_checked {ns : Nat → Nat} {a r w x : Nat} (h : a ≤ r) (hr : r < U64) (hx : value .checked ns a r w = .ok x) : x = ns (r - a) + w := by
  unfold value addU at hx
  rw [wrap_sub h hr] at hx
  split at hx
  · cases hx; rfl
  · cases hx

theorem value_fits {m : Mode} {ns : Nat → Nat} {a r w : Nat} (h : a ≤ r) (hr : r < U64) (hf : ns (r - a) + w < U64) : value m ns a r w = .ok (ns (r - a) + w) := by
  unfold value addU
  rw [wrap_sub h hr, if_pos hf]

/-- The base is a system time that could be read, plus ten -/
theorem sysInit_some {m : Mode} {sys : Option Nat} {w : Nat} (h : sysInit m sys = some w) (hm : m = .checked ∨ ∀ v, sys = some v → v + 10 < U64) : ∃ v, sys = some v ∧ w = v + 10 := by
  cases sys with
  | none => cases h
  | some v =>
    refine ⟨v, rfl, ?_⟩
    unfold sysInit addU BUFFER at h
    dsimp only at h
    by_cases hv : v + 10 < U64
    · rw [if_pos hv] at h; cases h; rfl
    · rcases hm with rfl | hm
      · rw [if_neg hv] at h; cases h
      · exact absurd (hm v rfl) hv

/-- What every stamp of an execution is: nanoseconds since one instant plus one number, which is a system time read at that instant or later, plus ten -/
theorem stamps {W : Nat → Option Nat → Prop} {m : Mode} {ns : Nat → Nat} {es : List Ev} {s : State} (h : Run W m ns es s) (hm : m = .checked ∨ StampFits W ns s.raw) {t c q x : Nat}
    (hx : Ev.ret t c q x ∈ es) : ∃ a raw v r, s.anchor = some a ∧ s.base = some (some (v + 10)) ∧ a ≤ raw ∧ W raw (some v) ∧ a ≤ r ∧ c ≤ r ∧ r ≤ q ∧ q ≤ s.raw ∧ x = ns (r - a) + (v + 10) := by
  have hi := stamp_inv h
  obtain ⟨a, w, r, b1, b2, b3, b4, b5, b6, b7⟩ := hi.rets t c q x hx
  obtain ⟨a', raw, sys, c1, c2, c3, c4⟩ := hi.base _ b2
  rw [b1] at c1
  cases c1
  have hr : r < U64 := lt_of_le_of_lt (le_trans b5 b6) hi.small
  obtain ⟨v, rfl, rfl⟩ := sysInit_some c4.symm (hm.imp id fun hf v hv => lt_of_le_of_lt (by omega) (hf 0 (Nat.zero_le _) raw v (hv ▸ c3)))
  refine ⟨a, raw, v, r, b1, b2, c2, c3, b3, b4, b5, b6, ?_⟩
  rcases hm with rfl | hf
  · exact value_checked b3 hr b7
  · rw [value_fits b3 hr (hf (r - a) (by omega) raw v c3)] at b7
    cases b7
    rfl

/-! ## C168 -/

/-- **C168.** Time stamps never run backwards, in whatever threads they are taken and whatever the system time is set to: a call made when or after another has
returned returns no less. (In a release build as long as nothing overflows.) -/
theorem C168_order {W : Nat → Option Nat → Prop} {m : Mode} {ns : Nat → Nat} (hns : Monotone ns) {es : List Ev} {s : State} (h : Run W m ns es s)
    (hm : m = .checked ∨ StampFits W ns s.raw) {t c q x t' c' q' x' : Nat} (h1 : Ev.ret t c q x ∈ es) (h2 : Ev.ret t' c' q' x' ∈ es) (hq : q ≤ c') : x ≤ x' := by
  obtain ⟨a, raw, v, r, b1, b2, -, -, b3, b4, b5, b6, rfl⟩ := stamps h hm h1
  obtain ⟨a', raw', v', r', c1, c2, -, -, c3, c4, c5, c6, rfl⟩ := stamps h hm h2
  rw [b1] at c1
  rw [b2] at c2
  cases c1
  injection c2 with c2
  injection c2 with c2
  rw [← c2]
  exact Nat.add_le_add_right (hns (by omega)) _

/-- Two stamps differ by the time that has passed on the counter (here in nanoseconds), up to the durations of the calls; setting the system time has no effect on them. -/
theorem C168_elapsed {W : Nat → Option Nat → Prop} {m : Mode} {es : List Ev} {s : State} (h : Run W m id es s) (hm : m = .checked ∨ StampFits W id s.raw) {t c q x t' c' q' x' : Nat}
    (h1 : Ev.ret t c q x ∈ es) (h2 : Ev.ret t' c' q' x' ∈ es) : x + c' ≤ x' + q ∧ x' + c ≤ x + q' := by
  obtain ⟨a, raw, v, r, b1, b2, -, -, b3, b4, b5, b6, rfl⟩ := stamps h hm h1
  obtain ⟨a', raw', v', r', c1, c2, -, -, c3, c4, c5, c6, rfl⟩ := stamps h hm h2
  rw [b1] at c1
  rw [b2] at c2
  cases c1
  injection c2 with c2
  injection c2 with c2
  simp only [id]
  omega

/-- If the system time runs with the counter, no stamp is behind the system time: it is at least ten nanoseconds ahead of what it was when the call was made. -/
theorem C168_ahead {B : Nat} {m : Mode} {es : List Ev} {s : State} (h : Run (InStep B) m id es s) (hm : m = .checked ∨ StampFits (InStep B) id s.raw) {t c q x : Nat}
    (h1 : Ev.ret t c q x ∈ es) : B + c + 10 ≤ x := by
  obtain ⟨a, raw, v, r, b1, b2, b0, bw, b3, b4, b5, b6, rfl⟩ := stamps h hm h1
  injection bw with bw
  simp only [id]
  omega

/-- If nothing overflows, either all calls of the process return a stamp or all panic; they panic only if the system time was before 1970 when it was first needed. -/
theorem C168_all_or_none {W : Nat → Option Nat → Prop} {m : Mode} {ns : Nat → Nat} {es : List Ev} {s : State} (h : Run W m ns es s) (hf : StampFits W ns s.raw) :
    (∀ e ∈ es, ∃ t c q x, e = .ret t c q x) ∨ ((∀ e ∈ es, ∃ t c q, e = .fail t c q) ∧ ∃ raw, W raw none) := by
  have hi := stamp_inv h
  by_cases hb : s.base = some none
  · refine Or.inr ⟨fun e he => ?_, ?_⟩
    · cases e with
      | fail t c q => exact ⟨t, c, q, rfl⟩
      | ret t c q x =>
        obtain ⟨a, w, r, -, b2, -⟩ := hi.rets t c q x he
        rw [hb] at b2
        cases b2
    · obtain ⟨a, raw, sys, -, -, c3, c4⟩ := hi.base _ hb
      cases sys with
      | none => exact ⟨raw, c3⟩
      | some v =>
        have := hf 0 (Nat.zero_le _) raw v c3
        unfold sysInit BUFFER at c4
        dsimp only at c4
        rw [addU_ok (show v + 10 < U64 from lt_of_le_of_lt (by omega) this)] at c4
        cases c4
  · refine Or.inl fun e he => ?_
    cases e with
    | ret t c q x => exact ⟨t, c, q, x, rfl⟩
    | fail t c q =>
      obtain ⟨a, b1, b2 | ⟨w, r, e, b2, b3, b4, b5⟩⟩ := hi.fails t c q he
      · exact absurd b2 hb
      · obtain ⟨a', raw, sys, c1, c2, c3, c4⟩ := hi.base _ b2
        obtain ⟨v, rfl, rfl⟩ := sysInit_some c4.symm (Or.inr fun v hv => lt_of_le_of_lt (by omega) (hf 0 (Nat.zero_le _) raw v (hv ▸ c3)))
        rw [value_fits b3 (lt_of_le_of_lt b4 hi.small) (hf (r - a) (by omega) raw v c3)] at b5
        cases b5

theorem run_snoc {W : Nat → Option Nat → Prop} {m : Mode} {ns : Nat → Nat} {es es' : List Ev} {s s' : State} (h : Run W m ns es s) (hs : Step W m ns s es' s') : Run W m ns (es ++ es') s' :=
  .step h hs

theorem run_anchor {W : Nat → Option Nat → Prop} {m : Mode} {ns : Nat → Nat} {es : List Ev} {s : State} {t c a : Nat} (h : Run W m ns es s) (hp : s.pc t = .called c)
    (ha : s.anchor.getD s.raw = a) : Run W m ns es { s with anchor := some a, pc := s.at t (.anchored c) } := by
  have := run_snoc h (.anchor _ t c hp)
  rw [List.append_nil, ha] at this
  exact this

theorem run_stamp {W : Nat → Option Nat → Prop} {m : Mode} {ns : Nat → Nat} {es : List Ev} {s : State} {t c r a w x : Nat} (h : Run W m ns es s) (hp : s.pc t = .read c r)
    (ha : s.anchor = some a) (hb : s.base.getD (sysInit m s.sys) = some w) (hv : value m ns a r w = .ok x) :
    Run W m ns (es ++ [.ret t c s.raw x]) { s with base := some (some w), pc := s.at t .idle } := by
  have := run_snoc h (.stamp _ t c r a hp ha)
  rw [hb] at this
  unfold outcome at this
  dsimp only at this
  rw [hv] at this
  exact this

/-- The run of the next theorem, for the numbers it needs -/
theorem lead_run (B d w x y : Nat) (hd5 : d + 5 < U64) (hs : sysInit .checked (some (B + (d + 5))) = some w) (v1 : value .checked id 5 5 w = .ok x)
    (v2 : value .checked id 5 (d + 5) w = .ok y) : ∃ s, Run (InStep B) .checked id [.ret 1 5 (d + 5) x, .ret 2 (d + 5) (d + 5) y] s := by
  have r0 : Run (InStep B) .checked id [] (start 5 (some (B + 5))) := .start 5 _ (by decide) rfl
  have r1 := run_snoc r0 (.call _ 1 rfl)
  have r2 := run_anchor (t := 1) (c := 5) (a := 5) r1 rfl rfl
  have r3 := run_snoc r2 (.read _ 1 5 rfl)
  have r4 := run_snoc r3 (.tick _ (d + 5) (some (B + (d + 5))) (Nat.le_add_left 5 d) hd5 rfl)
  have r5 := run_stamp (t := 1) (c := 5) (r := 5) (a := 5) (w := w) r4 rfl rfl hs v1
  have r6 := run_snoc r5 (.call _ 2 rfl)
  have r7 := run_anchor (t := 2) (c := d + 5) (a := 5) r6 rfl rfl
  have r8 := run_snoc r7 (.read _ 2 (d + 5) rfl)
  have r9 := run_stamp (t := 2) (c := d + 5) (r := d + 5) (a := 5) (w := w) r8 rfl rfl rfl v2
  exact ⟨_, r9⟩

/-- But stamps can be ahead of the system time by any amount for the whole life of the process: if the thread that makes the first call is held up for `d` nanoseconds between its two
anchors (here thread 1, called when the counter is 5), every later stamp, in any thread, is `d` too far in the future. Here thread 2 calls at counter `d + 5` and gets it at once. -/
theorem fault_lead (B d : Nat) (hd : B + d + d + 15 < 2 ^ 64) :
    ∃ s, Run (InStep B) .checked id [.ret 1 5 (d + 5) (B + (d + 5) + 10), .ret 2 (d + 5) (d + 5) (B + (d + 5) + d + 10)] s := by
  have l1 : d + 5 ≤ B + d + d + 15 := by clear hd; omega
  have l2 : B + (d + 5) + 10 ≤ B + d + d + 15 := by clear hd; omega
  have l3 : d + (B + (d + 5) + 10) = B + d + d + 15 := by clear hd; omega
  have hU : B + d + d + 15 < U64 := hd
  refine lead_run B d (B + (d + 5) + 10) _ _ (lt_of_le_of_lt l1 hU) ?_ ?_ ?_
  · unfold sysInit BUFFER
    dsimp only
    rw [addU_ok (lt_of_le_of_lt l2 hU)]
  · rw [value_fits (le_refl _) (by decide) (show id (5 - 5) + (B + (d + 5) + 10) < U64 by rw [Nat.sub_self, id, Nat.zero_add]; exact lt_of_le_of_lt l2 hU), Nat.sub_self, id, Nat.zero_add]
  · rw [value_fits (Nat.le_add_left 5 d) (lt_of_le_of_lt l1 hU) (show id (d + 5 - 5) + (B + (d + 5) + 10) < U64 by rw [Nat.add_sub_cancel, id, l3]; exact hU), Nat.add_sub_cancel, id]
    congr 1
    clear hd hU l1 l2 l3
    omega

/-! ## C169: the clock of one thread -/

/-- The calls of one thread are made and answered one after the other on a counter that does not run backwards. -/
structure InOrder (tr : List (Option Nat × Nat × Nat × Res Nat)) : Prop where
  each : ∀ e ∈ tr, e.2.1 ≤ e.2.2.1 ∧ e.2.2.1 < 2 ^ 64
  next : tr.Pairwise fun e f => e.2.2.1 ≤ f.2.1

/-- What the thread's anchors are -/
def LocalInv (m : Mode) (ns : Nat → Nat) (tr : List (Option Nat × Nat × Nat × Res Nat)) (l : Option Local) : Prop :=
  match l with
  | none => ∀ e ∈ tr, ∀ x, e.2.2.2 ≠ .ok x
  | some l => (∃ e ∈ tr, sysInit m e.1 = some l.base ∧ l.anchor = e.2.1) ∧
      ∀ e ∈ tr, ∀ x, e.2.2.2 = .ok x → l.anchor ≤ e.2.2.1 ∧ value m ns l.anchor e.2.2.1 l.base = .ok x

theorem local_inv {m : Mode} {ns : Nat → Nat} {tr : List (Option Nat × Nat × Nat × Res Nat)} {l : Option Local} (h : LocalRun m ns tr l) (ho : InOrder tr) : LocalInv m ns tr l := by
  induction h with
  | nil => intro e he; cases he
  | @snoc tr l sys c r hr ih =>
    obtain ⟨o1, o2⟩ := ho
    rw [List.pairwise_append] at o2
    have ih := ih ⟨fun e he => o1 e (List.mem_append_left _ he), o2.1⟩
    have hcr : c ≤ r := (o1 _ (List.mem_append_right _ (List.mem_singleton.2 rfl))).1
    cases l with
    | some l =>
      obtain ⟨⟨e, he, i1, i2⟩, i3⟩ := ih
      refine ⟨⟨e, List.mem_append_left _ he, i1, i2⟩, fun f hf x hx => ?_⟩
      rcases List.mem_append.1 hf with hf | hf
      · exact i3 f hf x hx
      · rw [List.mem_singleton] at hf
        subst hf
        have h1 := (o1 e (List.mem_append_left _ he)).1
        have h2 := o2.2.2 e he _ (List.mem_singleton.2 rfl)
        exact ⟨by rw [i2]; exact le_trans h1 (le_trans h2 hcr), hx⟩
    | none =>
      cases hs : sysInit m sys with
      | none =>
        have e1 : Local.call m ns none sys c r = (none, .error .unwrapNone) := by unfold Local.call; dsimp only; rw [hs]
        rw [e1]
        intro f hf x hx
        rcases List.mem_append.1 hf with hf | hf
        · exact ih f hf x hx
        · rw [List.mem_singleton] at hf
          subst hf
          cases hx
      | some w =>
        have e1 : Local.call m ns none sys c r = (some ⟨w, c⟩, value m ns c r w) := by unfold Local.call; dsimp only; rw [hs]
        rw [e1]
        refine ⟨⟨(sys, c, r, _), List.mem_append_right _ (List.mem_singleton.2 rfl), hs, rfl⟩, fun f hf x hx => ?_⟩
        rcases List.mem_append.1 hf with hf | hf
        · exact absurd hx (ih f hf x)
        · rw [List.mem_singleton] at hf
          subst hf
          exact ⟨hcr, hx⟩

/-- **C169.** Within one thread the stamps of `get_thread_local_unix_nano` never run backwards, whatever the system time is set to: of two calls that return, the one whose
last reading of the counter is later returns no less. (In a release build as long as nothing overflows.) -/
theorem C169_order {m : Mode} {ns : Nat → Nat} (hns : Monotone ns) {tr : List (Option Nat × Nat × Nat × Res Nat)} {l : Option Local} (h : LocalRun m ns tr l) (ho : InOrder tr)
    (hm : m = .checked ∨ ∀ e ∈ tr, ∀ f ∈ tr, ∀ v, f.1 = some v → ∀ d ≤ e.2.2.1, ns d + (v + 10) < 2 ^ 64) {e f : Option Nat × Nat × Nat × Res Nat} (he : e ∈ tr) (hf : f ∈ tr)
    {x y : Nat} (hx : e.2.2.2 = .ok x) (hy : f.2.2.2 = .ok y) (hef : e.2.2.1 ≤ f.2.2.1) : x ≤ y := by
  have hi := local_inv h ho
  cases l with
  | none => exact absurd hx (hi e he x)
  | some l =>
    obtain ⟨⟨g, hg, i1, -⟩, i3⟩ := hi
    obtain ⟨a1, a2⟩ := i3 e he x hx
    obtain ⟨b1, b2⟩ := i3 f hf y hy
    have key : x = ns (e.2.2.1 - l.anchor) + l.base ∧ y = ns (f.2.2.1 - l.anchor) + l.base := by
      rcases hm with rfl | hm
      · exact ⟨value_checked a1 (ho.each e he).2 a2, value_checked b1 (ho.each f hf).2 b2⟩
      · obtain ⟨v, hv, hw⟩ := sysInit_some i1 (Or.inr fun v hv => lt_of_le_of_lt (by omega) (hm g hg g hg v hv 0 (Nat.zero_le _)))
        have e1 := hm e he g hg v hv (e.2.2.1 - l.anchor) (Nat.sub_le _ _)
        have e2 := hm f hf g hg v hv (f.2.2.1 - l.anchor) (Nat.sub_le _ _)
        rw [← hw] at e1 e2
        rw [value_fits a1 (ho.each e he).2 e1] at a2
        rw [value_fits b1 (ho.each f hf).2 e2] at b2
        cases a2
        cases b2
        exact ⟨rfl, rfl⟩
    rw [key.1, key.2]
    exact Nat.add_le_add_right (hns (Nat.sub_le_sub_right hef _)) _

/-- If the system time runs with the counter, a thread's stamp is behind the counter's time by as much as the thread was held up between its two anchors, for ever; so of two threads the
later call can return less. Here both call when the system time is 1000000 plus the counter; the second is held up for 5000 ns and its stamp, taken at counter 5200, is smaller than the one
the first took at counter 1000. -/
theorem fault_threads_disagree : ∃ l l', LocalRun .checked id [(some 1000000, 0, 5, .ok 1000015), (none, 999, 1000, .ok 1001010)] l ∧
    LocalRun .checked id [(some 1000100, 5100, 5200, .ok 1000210)] l' :=
  ⟨_, _, .snoc none 999 1000 (.snoc (some 1000000) 0 5 .nil), .snoc (some 1000100) 5100 5200 .nil⟩

end Verif.Props
