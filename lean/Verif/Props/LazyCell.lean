import Verif.TE.LazyCell
/-!
# C150: lazily initialised texts under every schedule
-/
set_option autoImplicit false
namespace Verif.Props
open Verif.TE.LazyCell

/-- The specification: `v` is what the first call of the initializer that does not panic returns. -/
def FirstSuccess (out : Nat → Option String) (v : String) : Prop := ∃ k, out k = some v ∧ ∀ j, j < k → out j = none

theorem FirstSuccess.unique {out : Nat → Option String} {v w : String} (h : FirstSuccess out v) (h' : FirstSuccess out w) : v = w := by
  obtain ⟨k, h1, h2⟩ := h
  obtain ⟨m, g1, g2⟩ := h'
  rcases Nat.lt_trichotomy k m with l | rfl | l
  · rw [g2 k l] at h1; cases h1
  · rw [h1] at g1; exact Option.some.inj g1
  · rw [h2 m l] at g1; cases g1

/-- The invariant of all executions. -/
structure LazyInv (out : Nat → Option String) (s : Lazy) : Prop where
  free : s.busy = false → ∀ t k, s.pc t ≠ .running k
  held : s.busy = true → s.cell = none ∧ ∃ t, s.pc t = .running (s.calls - 1) ∧ 0 < s.calls ∧ (∀ u k, s.pc u = .running k → u = t) ∧
    ∀ j, j < s.calls - 1 → out j = none
  empty : s.busy = false → s.cell = none → ∀ j, j < s.calls → out j = none
  full : ∀ v, s.cell = some v → s.busy = false ∧ 0 < s.calls ∧ out (s.calls - 1) = some v ∧ ∀ j, j < s.calls - 1 → out j = none

theorem lazy_new (out : Nat → Option String) : LazyInv out new :=
  ⟨fun _ t k h => (by cases h), fun h => (by cases h), fun _ _ j h => absurd h (Nat.not_lt_zero j), fun v h => (by cases h)⟩

theorem at_self (s : Lazy) (t : Nat) (p : Pc) : s.at t p t = p := if_pos rfl
theorem at_other (s : Lazy) (t u : Nat) (p : Pc) (h : u ≠ t) : s.at t p u = s.pc u := if_neg h

theorem busy_of {out : Nat → Option String} {s : Lazy} (hi : LazyInv out s) {t k : Nat} (h : s.pc t = .running k) :
    s.busy = true := by
  cases hb : s.busy with
  | true => rfl
  | false => exact absurd h (hi.free hb t k)

theorem lazy_step {out : Nat → Option String} {s s' : Lazy} {e : Ev} (hi : LazyInv out s) (h : Step out s e s') : LazyInv out s' := by
  cases h with
  | fast t v h1 h2 => exact hi
  | look t h1 h2 =>
    refine ⟨fun hb u k => ?_, fun hb => ?_, hi.empty, hi.full⟩
    · show s.at t .entered u ≠ _
      by_cases hu : u = t
      · rw [hu, at_self]; intro h; cases h
      · rw [at_other _ _ _ _ hu]; exact hi.free hb u k
    · obtain ⟨g1, w, g2, g3, g4, g5⟩ := hi.held hb
      refine ⟨g1, w, ?_, g3, fun u k hk => ?_, g5⟩
      · have : w ≠ t := by rintro rfl; rw [h1] at g2; cases g2
        show s.at t .entered w = _
        rw [at_other _ _ _ _ this]; exact g2
      · have hk' : s.at t .entered u = .running k := hk
        by_cases hu : u = t
        · rw [hu, at_self] at hk'; cases hk'
        · rw [at_other _ _ _ _ hu] at hk'; exact g4 u k hk'
  | claim t h1 h2 h3 =>
    refine ⟨fun hb => (by cases hb), fun _ => ⟨h2, t, ?_, Nat.succ_pos _, fun u k hk => ?_, fun j hj => ?_⟩, fun hb => (by cases hb), fun v hv => ?_⟩
    · show s.at t _ t = _
      rw [at_self]; rfl
    · have hk' : s.at t (.running s.calls) u = .running k := hk
      by_cases hu : u = t
      · exact hu
      · rw [at_other _ _ _ _ hu] at hk'; exact absurd hk' (hi.free h3 u k)
    · exact hi.empty h3 h2 j hj
    · have hv' : s.cell = some v := hv
      rw [h2] at hv'; cases hv'
  | late t v h1 h2 =>
    obtain ⟨g1, g2, g3, g4⟩ := hi.full v h2
    refine ⟨fun hb u k => ?_, fun hb => ?_, hi.empty, hi.full⟩
    · show s.at t .idle u ≠ _
      by_cases hu : u = t
      · rw [hu, at_self]; intro h; cases h
      · rw [at_other _ _ _ _ hu]; exact hi.free hb u k
    · have hb' : s.busy = true := hb
      rw [g1] at hb'; cases hb'
  | done t k v h1 h2 =>
    obtain ⟨g1, w, g2, g3, g4, g5⟩ := hi.held (busy_of hi h1)
    obtain rfl := g4 t k h1
    rw [g2] at h1
    obtain rfl := Pc.running.inj h1
    refine ⟨fun _ u k => ?_, fun hb => (by cases hb), fun _ hc => (by cases hc), fun w' hw => ?_⟩
    · show s.at t .idle u ≠ _
      by_cases hu : u = t
      · rw [hu, at_self]; intro h; cases h
      · rw [at_other _ _ _ _ hu]; exact fun h => hu (g4 u k h)
    · obtain rfl := Option.some.inj hw
      exact ⟨rfl, g3, h2, g5⟩
  | fail t k h1 h2 =>
    obtain ⟨g1, w, g2, g3, g4, g5⟩ := hi.held (busy_of hi h1)
    obtain rfl := g4 t k h1
    rw [g2] at h1
    obtain rfl := Pc.running.inj h1
    refine ⟨fun _ u k => ?_, fun hb => (by cases hb), fun _ _ j hj => ?_, fun w' hw => ?_⟩
    · show s.at t .idle u ≠ _
      by_cases hu : u = t
      · rw [hu, at_self]; intro h; cases h
      · rw [at_other _ _ _ _ hu]; exact fun h => hu (g4 u k h)
    · have hj' : j < s.calls := hj
      by_cases e : j = s.calls - 1
      · rw [e]; exact h2
      · exact g5 j (by omega)
    · have : s.cell = some w' := hw
      rw [g1] at this; cases this

theorem lazy_run {out : Nat → Option String} {s s' : Lazy} {tr : List Ev} (hi : LazyInv out s) (h : Run out s tr s') : LazyInv out s' := by
  induction h with
  | nil => exact hi
  | cons h1 _ ih => exact ih (lazy_step hi h1)

theorem step_returns {out : Nat → Option String} {s s' : Lazy} {t : Nat} {v : String} (hi : LazyInv out s) (h : Step out s (.ret t v) s') :
    FirstSuccess out v ∧ s'.cell = some v := by
  cases h with
  | fast _ _ h1 h2 =>
    obtain ⟨-, -, g3, g4⟩ := hi.full v h2
    exact ⟨⟨_, g3, g4⟩, h2⟩
  | late _ _ h1 h2 =>
    obtain ⟨-, -, g3, g4⟩ := hi.full v h2
    exact ⟨⟨_, g3, g4⟩, h2⟩
  | done _ k _ h1 h2 =>
    obtain ⟨g1, w, g2, g3, g4, g5⟩ := hi.held (busy_of hi h1)
    obtain rfl := g4 t k h1
    rw [g2] at h1
    obtain rfl := Pc.running.inj h1
    exact ⟨⟨_, h2, g5⟩, rfl⟩

/-- **C150** (one text). Whatever the schedule of the threads and whatever the initializer does, every `deref` that returns gives the
text of the first call of the initializer that did not panic. -/
theorem C150_value {out : Nat → Option String} {s : Lazy} {tr : List Ev} (h : Run out new tr s) (t : Nat) (v : String)
    (hr : Ev.ret t v ∈ tr) : FirstSuccess out v := by
  have gen : ∀ s0, LazyInv out s0 → Run out s0 tr s → FirstSuccess out v := by
    intro s0 hi hrun
    clear h
    induction hrun with
    | nil => cases hr
    | cons h1 _ ih =>
      rcases List.mem_cons.1 hr with e | hm
      · subst e; exact (step_returns hi h1).1
      · exact ih hm (lazy_step hi h1)
  exact gen _ (lazy_new out) h

/-- **C150** (the same for everybody). -/
theorem C150_same {out : Nat → Option String} {s : Lazy} {tr : List Ev} (h : Run out new tr s) (t u : Nat) (v w : String)
    (hv : Ev.ret t v ∈ tr) (hw : Ev.ret u w ∈ tr) : v = w :=
  (C150_value h t v hv).unique (C150_value h u w hw)

/-- The number of calls of the initializer, and of its panics, in an execution. -/
def callsIn : List Ev → Nat
  | [] => 0
  | .call _ :: tr => callsIn tr + 1
  | _ :: tr => callsIn tr

def panicsIn : List Ev → Nat
  | [] => 0
  | .fail _ :: tr => panicsIn tr + 1
  | _ :: tr => panicsIn tr

theorem full_stays {out : Nat → Option String} {s s' : Lazy} {tr : List Ev} (hi : LazyInv out s) (hc : s.cell.isSome) (h : Run out s tr s') :
    callsIn tr = 0 ∧ panicsIn tr = 0 ∧ s'.cell = s.cell := by
  induction h with
  | nil => exact ⟨rfl, rfl, rfl⟩
  | cons h1 _ ih =>
    rename_i s s1 s2 e tr _
    obtain ⟨v, hv⟩ := Option.isSome_iff_exists.1 hc
    have hb := (hi.full v hv).1
    cases h1 with
    | fast t w g1 g2 => exact ih hi hc
    | look t g1 g2 => rw [g2] at hv; cases hv
    | claim t g1 g2 g3 => rw [g2] at hv; cases hv
    | late t w g1 g2 => exact ih (lazy_step hi (.late s t w g1 g2)) hc
    | done t k w g1 g2 => exact absurd g1 (hi.free hb t k)
    | fail t k g1 g2 => exact absurd g1 (hi.free hb t k)

/-- **C150** (once). Once a `deref` has returned, the initializer is not called again by anybody and the text does not change; and
altogether it is called at most once more often than it panics. -/
theorem C150_once {out : Nat → Option String} {s : Lazy} {tr : List Ev} (h : Run out new tr s) :
    callsIn tr ≤ panicsIn tr + 1 ∧
    ∀ a b t v, tr = a ++ Ev.ret t v :: b → callsIn b = 0 ∧ panicsIn b = 0 ∧ s.cell = some v := by
  constructor
  · have gen : ∀ s0, LazyInv out s0 → Run out s0 tr s → callsIn tr + (if s0.busy then 1 else 0) ≤ panicsIn tr + 1 := by
      intro s0 hi hrun
      clear h
      induction hrun with
      | nil s => cases s.busy <;> decide
      | cons h1 h2 ih =>
        have hi' := lazy_step hi h1
        have := ih hi'
        cases h1 with
        | fast t w g1 g2 => exact this
        | look t g1 g2 => exact this
        | claim t g1 g2 g3 =>
          rw [g3]
          simp only [callsIn, panicsIn, if_pos] at this ⊢
          exact this
        | late t w g1 g2 => exact this
        | done t k w g1 g2 =>
          obtain ⟨e1, e2, -⟩ := full_stays hi' rfl h2
          rw [busy_of hi g1]
          simp only [callsIn, panicsIn, e1, e2]
          decide
        | fail t k g1 g2 =>
          rw [busy_of hi g1]
          simp only [callsIn, panicsIn, Bool.false_eq_true, if_false, if_true] at this ⊢
          omega
    have := gen _ (lazy_new out) h
    simpa [new] using this
  · have gen : ∀ a b t v s0, LazyInv out s0 → Run out s0 (a ++ Ev.ret t v :: b) s → callsIn b = 0 ∧ panicsIn b = 0 ∧ s.cell = some v := by
      intro a
      induction a with
      | nil =>
        intro b t v s0 hi hrun
        cases hrun with
        | cons h1 h2 =>
          have e := (step_returns hi h1).2
          obtain ⟨e1, e2, e3⟩ := full_stays (lazy_step hi h1) (by rw [e]; rfl) h2
          exact ⟨e1, e2, e3.trans e⟩
      | cons x a ih =>
        intro b t v s0 hi hrun
        cases hrun with
        | cons h1 h2 => exact ih b t v _ (lazy_step hi h1) h2
    rintro a b t v rfl
    exact gen a b t v _ (lazy_new out) h

/-- **C150** (one at a time). No two threads are in the initializer at once. -/
theorem C150_exclusive {out : Nat → Option String} {s : Lazy} {tr : List Ev} (h : Run out new tr s) (t u k m : Nat)
    (ht : s.pc t = .running k) (hu : s.pc u = .running m) : t = u ∧ k = m := by
  have hi := lazy_run (lazy_new out) h
  obtain ⟨-, w, -, -, g, -⟩ := hi.held (busy_of hi ht)
  have e : t = u := (g t k ht).trans (g u m hu).symm
  subst e
  rw [ht] at hu
  exact ⟨rfl, Pc.running.inj hu⟩

/-- **C150** (no deadlock). From every reachable state, if the initializer's calls return, any thread can still get its text. -/
theorem C150_progress {out : Nat → Option String} (ho : ∀ k, (out k).isSome) {s : Lazy} {tr : List Ev} (h : Run out new tr s) (t : Nat) :
    ∃ tr' s' v, Run out s tr' s' ∧ Ev.ret t v ∈ tr' := by
  have hi := lazy_run (lazy_new out) h
  have full : ∀ s : Lazy, ∀ v, s.cell = some v → (∀ k, s.pc t ≠ .running k) → ∃ tr' s' v, Run out s tr' s' ∧ Ev.ret t v ∈ tr' := by
    intro s v hv hn
    cases hp : s.pc t with
    | idle => exact ⟨_, _, v, .cons (.fast s t v hp hv) (.nil _), List.mem_singleton.2 rfl⟩
    | entered => exact ⟨_, _, v, .cons (.late s t v hp hv) (.nil _), List.mem_singleton.2 rfl⟩
    | running k => exact absurd hp (hn k)
  have free : ∀ s : Lazy, s.cell = none → s.busy = false → s.pc t = .entered → ∃ tr' s' v, Run out s tr' s' ∧ Ev.ret t v ∈ tr' := by
    intro s hc hb hp
    obtain ⟨v, hv⟩ := Option.isSome_iff_exists.1 (ho s.calls)
    refine ⟨_, _, v, .cons (.claim s t hp hc hb) (.cons (.done _ t s.calls v (at_self _ _ _) hv) (.nil _)), ?_⟩
    exact List.mem_cons_of_mem _ (List.mem_singleton.2 rfl)
  cases hb : s.busy with
  | true =>
    obtain ⟨g1, w, g2, g3, g4, g5⟩ := hi.held hb
    obtain ⟨v, hv⟩ := Option.isSome_iff_exists.1 (ho (s.calls - 1))
    by_cases e : t = w
    · subst e
      exact ⟨_, _, v, .cons (.done s t _ v g2 hv) (.nil _), List.mem_singleton.2 rfl⟩
    · have st := Step.done (out := out) s w _ v g2 hv
      obtain ⟨tr', s', v', r, m⟩ := full _ v rfl ((lazy_step hi st).free rfl t)
      exact ⟨_, _, v', .cons st r, List.mem_cons_of_mem _ m⟩
  | false =>
    cases hc : s.cell with
    | some v => exact full s v hc (hi.free hb t)
    | none =>
      cases hp : s.pc t with
      | idle =>
        have st := Step.look (out := out) s t hp hc
        obtain ⟨tr', s', v', r, m⟩ := free { s with pc := s.at t .entered } hc hb (at_self _ _ _)
        exact ⟨_, _, v', .cons st r, List.mem_cons_of_mem _ m⟩
      | entered => exact free s hc hb hp
      | running k => exact absurd hp (hi.free hb t k)

/-- Concrete case: three threads race, the first initializer call panics, the second gives "b" (the third would give "c"); thread 2
waits and gets "b" too, and so does a later read of the thread whose call panicked. -/
theorem C150_case : ∃ s, Run (fun k => [none, some "b", some "c"][k]?.join) new
    [.look 0, .look 1, .look 2, .call 0, .fail 0, .call 1, .ret 1 "b", .ret 2 "b", .ret 0 "b"] s := by
  refine ⟨_, .cons (.look _ 0 rfl rfl) (.cons (.look _ 1 rfl rfl) (.cons (.look _ 2 rfl rfl) (.cons (.claim _ 0 rfl rfl rfl)
    (.cons (.fail _ 0 0 rfl rfl) (.cons (.claim _ 1 rfl rfl rfl) (.cons (.done _ 1 1 "b" rfl rfl) (.cons (.late _ 2 "b" rfl rfl)
    (.cons (.fast _ 0 "b" rfl rfl) (.nil _)))))))))⟩

end Verif.Props
