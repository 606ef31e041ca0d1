import Verif.TE.Logger
import Mathlib.Data.List.Infix
import Mathlib.Tactic.Tauto
/-!
# The logger: specification and invariant

The specification speaks about a history of actions: which messages pass the level in force, what their text is, which
files are named.
-/
set_option autoImplicit false
namespace Verif.Props
open Verif Verif.TE.Log

/-! ## Specification -/

/-- The text of a message. -/
def logText : Msg → Bytes
  | .lazy (some s) => s
  | .flushing (some s) => s
  | .static s => s
  | _ => []

/-- The texts of messages, one after the other. -/
def logTexts (l : List Msg) : Bytes := (l.map logText).flatten

/-- The files named by messages, in order. -/
def logPaths : List Msg → List String
  | [] => []
  | .setFile p :: l => p :: logPaths l
  | _ :: l => logPaths l

/-- What the callers of a history send when the level `lv` is in force at its start: log calls that pass the level in
force, files, and the end. -/
def logSends : Nat → List Act → List Msg
  | _, [] => []
  | lv, .log l e :: as => if l.num ≤ lv then .lazy e :: logSends lv as else logSends lv as
  | lv, .flushingLog l e :: as => if l.num ≤ lv then .flushing e :: logSends lv as else logSends lv as
  | lv, .control x :: as => x :: logSends lv as
  | _, .setLevel l :: as => logSends l.num as
  | lv, .setReport _ :: as => logSends lv as
  | lv, .work _ :: as => logSends lv as

/-- The messages before the first request to end. -/
def beforeClose (l : List Msg) : List Msg := l.takeWhile (· ≠ .close)

/-- All the bytes appended to files, in the order of time. -/
def logWritten (d : Disk) : Bytes := (d.map (·.2)).flatten

/-! ## Lemmas -/

theorem logTexts_append (a b : List Msg) : logTexts (a ++ b) = logTexts a ++ logTexts b := by simp [logTexts]

theorem logPaths_append (a b : List Msg) : logPaths (a ++ b) = logPaths a ++ logPaths b := by
  induction a with
  | nil => rfl
  | cons x a ih => cases x <;> simp [logPaths, ih]

theorem logWritten_append (a b : Disk) : logWritten (a ++ b) = logWritten a ++ logWritten b := by simp [logWritten]

theorem content_append (a b : Disk) (old : String → Bytes) (p : String) :
    (a ++ b : Disk).content old p = a.content old p ++ (b.content (fun _ => []) p) := by
  simp [Disk.content]

theorem content_one (q : String) (s : Bytes) (p : String) :
    Disk.content [(q, s)] (fun _ => []) p = if q = p then s else [] := by
  by_cases h : q = p <;> simp [Disk.content, h]

/-- What a writer holds back for a file. -/
def held (p : String) : Option Writer → Bytes
  | some w => if w.path = p then w.buf else []
  | none => []

theorem writeAll_cases (w : Writer) (d : Disk) (s : Bytes) :
    (s.length ≤ capacity - w.buf.length ∧ s.length < capacity ∧ w.writeAll d s = (⟨w.path, w.buf ++ s⟩, d)) ∨
    (s.length ≥ capacity ∧ w.writeAll d s = (⟨w.path, []⟩, d ++ [(w.path, w.buf), (w.path, s)])) ∨
    (s.length < capacity ∧ w.writeAll d s = (⟨w.path, s⟩, d ++ [(w.path, w.buf)])) ∨
    (w.buf = [] ∧ w.writeAll d s = (⟨w.path, []⟩, d ++ [(w.path, s)])) := by
  have hc : capacity = 8192 := rfl
  by_cases h1 : s.length < capacity - w.buf.length
  · exact Or.inl ⟨by omega, by omega, by simp [Writer.writeAll, h1]⟩
  by_cases h2 : s.length > capacity - w.buf.length <;> by_cases h3 : s.length ≥ capacity
  · exact Or.inr (Or.inl ⟨h3, by simp only [Writer.writeAll, h1, h2, h3, if_true, if_false]; simp⟩)
  · exact Or.inr (Or.inr (Or.inl ⟨by omega, by simp only [Writer.writeAll, h1, h2, h3, if_true, if_false]; simp⟩))
  · have hb : w.buf = [] := List.eq_nil_of_length_eq_zero (by omega)
    refine Or.inr (Or.inr (Or.inr ⟨hb, ?_⟩))
    simp only [Writer.writeAll, h1, h2, h3, if_true, if_false]
    rw [← hb]
  · exact Or.inl ⟨by omega, by omega, by simp only [Writer.writeAll, h1, h2, h3, if_false]⟩

theorem writeAll_path (w : Writer) (d : Disk) (s : Bytes) : (w.writeAll d s).1.path = w.path := by
  rcases writeAll_cases w d s with ⟨_, _, h⟩ | ⟨_, h⟩ | ⟨_, h⟩ | ⟨_, h⟩ <;> rw [h]

theorem writeAll_stream (w : Writer) (d : Disk) (s : Bytes) :
    logWritten (w.writeAll d s).2 ++ (w.writeAll d s).1.buf = logWritten d ++ w.buf ++ s := by
  rcases writeAll_cases w d s with ⟨_, _, h⟩ | ⟨_, h⟩ | ⟨_, h⟩ | ⟨hb, h⟩ <;> rw [h]
  · simp
  · simp [logWritten]
  · simp [logWritten]
  · simp [logWritten, hb]

theorem writeAll_file (w : Writer) (d : Disk) (s : Bytes) (old : String → Bytes) (p : String) :
    (w.writeAll d s).2.content old p ++ held p (some (w.writeAll d s).1) =
      d.content old p ++ held p (some w) ++ (if w.path = p then s else []) := by
  rcases writeAll_cases w d s with ⟨_, _, h⟩ | ⟨_, h⟩ | ⟨_, h⟩ | ⟨hb, h⟩ <;> rw [h] <;>
    by_cases hp : w.path = p <;> simp [held, content_append, content_one, hp]
  · simp [Disk.content]
  · simp [Disk.content, hp]
  · exact hb

theorem writeAll_cap (w : Writer) (d : Disk) (s : Bytes) (h : w.buf.length ≤ capacity) :
    (w.writeAll d s).1.buf.length ≤ capacity := by
  rcases writeAll_cases w d s with ⟨_, _, h⟩ | ⟨_, h⟩ | ⟨_, h⟩ | ⟨hb, h⟩ <;> rw [h] <;>
    simp only [List.length_append, List.length_nil] <;> omega

/-- Handled messages `l`, the worker `w` and its output, with what every named file gets. -/
structure Good (l : List Msg) (w : Worker) (o : Out) (segs : Disk) : Prop where
  names : segs.map (·.1) = logPaths l
  total : logWritten segs ++ w.queue.flatten = logTexts l
  placed : ∀ a p b, l = a ++ Msg.setFile p :: b → logWritten (segs.take (logPaths a).length) <+: logTexts a
  flushed : ∀ a s b, l = a ++ Msg.flushing (some s) :: b → logPaths a ≠ [] →
    logTexts (a ++ [Msg.flushing (some s)]) <+: logWritten (segs.take (logPaths a).length)
  files : ∀ (p : String) (old : String → Bytes), o.disk.content old p ++ held p w.writer = segs.content old p
  stream : logWritten o.disk ++ (w.writer.elim [] (·.buf)) = logWritten segs
  writer : w.writer.map (·.path) = (logPaths l).getLast?
  cap : ∀ wr, w.writer = some wr → wr.buf.length ≤ capacity

theorem good_init (t : Nat) : Good [] ⟨[], t, none⟩ ⟨[], []⟩ [] where
  names := rfl
  total := rfl
  placed a p b h := by simp at h
  flushed a s b h := by simp at h
  files p old := by simp [held, Disk.content]
  stream := rfl
  writer := rfl
  cap _ h := by simp at h

theorem of_bind_ok {α β : Type} {r : Res α} {f : α → Res β} {b : β} (h : (r >>= f) = .ok b) :
    ∃ a, r = .ok a ∧ f a = .ok b := by
  cases r with
  | ok a => exact ⟨a, rfl, h⟩
  | error e => cases h

theorem held_empty (q p : String) : held p (some ⟨q, []⟩) = [] := by simp [held]

/-- Splitting off the last message. -/
theorem split_snoc {α : Type} {l a b : List α} {x y : α} (h : l ++ [x] = a ++ y :: b) :
    (b = [] ∧ a = l ∧ x = y) ∨ ∃ b', l = a ++ y :: b' := by
  rcases List.eq_nil_or_concat b with rfl | ⟨b', z, rfl⟩
  · left
    have := List.append_inj' h (by simp)
    exact ⟨rfl, this.1.symm, by simpa using this.2⟩
  · right
    refine ⟨b', ?_⟩
    rw [List.concat_eq_append] at h
    have h' : l ++ [x] = (a ++ y :: b') ++ [z] := by simpa using h
    exact (List.append_inj' h' rfl).1

/-- A message with a text joins the queue. -/
theorem good_push {l : List Msg} {w : Worker} {o : Out} {segs : Disk} (h : Good l w o segs) (x : Msg) (s : Bytes)
    (hx : logText x = s) (hp : logPaths [x] = []) (hf : logPaths l = [] ∨ ∀ e, x ≠ .flushing e) :
    Good (l ++ [x]) { w with queue := w.queue ++ [s] } o segs where
  names := by rw [logPaths_append, hp, List.append_nil]; exact h.names
  total := by
    rw [logTexts_append, ← h.total]
    simp [logTexts, hx]
  placed a p b e := by
    rcases split_snoc e with ⟨_, _, rfl⟩ | ⟨b', e'⟩
    · simp [logPaths] at hp
    · exact h.placed a p b' e'
  flushed a t b e ha := by
    rcases split_snoc e with ⟨_, rfl, rfl⟩ | ⟨b', e'⟩
    · rcases hf with hf | hf
      · exact absurd hf ha
      · exact absurd rfl (hf _)
    · exact h.flushed a t b' e' ha
  files := h.files
  stream := h.stream
  writer := by rw [logPaths_append, hp, List.append_nil]; exact h.writer
  cap := h.cap

/-- A message without text or file changes nothing. -/
theorem good_idle {l : List Msg} {w : Worker} {o : Out} {segs : Disk} (h : Good l w o segs) (x : Msg)
    (hx : logText x = []) (hp : logPaths [x] = []) (hf : ∀ e, x ≠ .flushing e) : Good (l ++ [x]) w o segs := by
  have := good_push h x [] hx hp (Or.inr hf)
  refine ⟨this.names, ?_, this.placed, this.flushed, this.files, this.stream, this.writer, this.cap⟩
  rw [← this.total]; simp

theorem logWritten_take_le (segs : Disk) (n : Nat) : logWritten (segs.take n) <+: logWritten segs :=
  ⟨logWritten (segs.drop n), by rw [← logWritten_append, List.take_append_drop]⟩

theorem paths_lt {l a b : List Msg} {p : String} (h : l = a ++ Msg.setFile p :: b) :
    (logPaths a).length < (logPaths l).length := by
  rw [h, logPaths_append]; simp [logPaths]

theorem drain_eq (report : Bool) (w : Worker) (wr : Writer) (later : Nat) (o : Out) :
    w.drain report wr later o = (⟨[], later, some (wr.writeAll o.disk w.queue.flatten).1⟩,
      ⟨(wr.writeAll o.disk w.queue.flatten).2, if report then o.console ++ [w.queue.flatten] else o.console⟩) := rfl

theorem good_segs {l : List Msg} {w : Worker} {o : Out} {segs : Disk} {wr : Writer} (h : Good l w o segs)
    (hw : w.writer = some wr) : ∃ init b, segs = init ++ [(wr.path, b)] := by
  have hn := h.names
  have hl := h.writer
  rw [hw, ← hn] at hl
  rcases List.eq_nil_or_concat segs with rfl | ⟨init, z, rfl⟩
  · simp at hl
  · refine ⟨init, z.2, ?_⟩
    simp at hl
    simp [hl]

/-- Writing the queue to the current file. -/
theorem good_write {l : List Msg} {w : Worker} {o : Out} {segs : Disk} {wr : Writer} (h : Good l w o segs)
    (hw : w.writer = some wr) (later : Nat) (console : List Bytes) :
    ∃ segs', Good l ⟨[], later, some (wr.writeAll o.disk w.queue.flatten).1⟩
      ⟨(wr.writeAll o.disk w.queue.flatten).2, console⟩ segs' ∧ logWritten segs' = logTexts l := by
  obtain ⟨init, b, rfl⟩ := good_segs h hw
  have htot : logWritten (init ++ [(wr.path, b ++ w.queue.flatten)]) = logTexts l := by
    rw [← h.total, logWritten_append, logWritten_append]; simp [logWritten]
  refine ⟨init ++ [(wr.path, b ++ w.queue.flatten)], ⟨?_, ?_, ?_, ?_, ?_, ?_, ?_, ?_⟩, htot⟩
  · rw [← h.names]; simp
  · rw [htot]; simp
  · intro a p c e
    have h1 := h.placed a p c e
    have h2 := paths_lt e
    rw [← h.names] at h2
    simp only [List.map_append, List.map_cons, List.map_nil, List.length_append, List.length_map, List.length_cons,
      List.length_nil] at h2
    rw [List.take_append_of_le_length (by omega)] at h1 ⊢
    exact h1
  · intro a s c e ha
    refine (h.flushed a s c e ha).trans ?_
    by_cases hle : (logPaths a).length ≤ init.length
    · rw [List.take_append_of_le_length hle, List.take_append_of_le_length hle]
    · rw [List.take_of_length_le (by simp; omega), List.take_of_length_le (by simp; omega), logWritten_append,
        logWritten_append]
      simp [logWritten]
  · intro p old
    have h1 := h.files p old
    rw [hw] at h1
    rw [writeAll_file, h1, content_append, content_append, content_one, content_one]
    by_cases hp : wr.path = p <;> simp [hp]
  · have h1 := h.stream
    rw [hw] at h1
    have h2 := writeAll_stream wr o.disk w.queue.flatten
    simp only [Option.elim] at h1 ⊢
    rw [h2, h1, htot, ← h.total]
  · have h1 := h.writer
    rw [hw] at h1
    simpa [writeAll_path] using h1
  · intro x hx
    obtain rfl := Option.some.inj hx
    exact writeAll_cap _ _ _ (h.cap wr hw)

/-- Flushing the writer. -/
theorem flush_file (wr : Writer) (d : Disk) (old : String → Bytes) (p : String) :
    (wr.flush d).2.content old p = d.content old p ++ held p (some wr) := by
  simp [Writer.flush, content_append, content_one, held]

theorem flush_stream (wr : Writer) (d : Disk) : logWritten (wr.flush d).2 = logWritten d ++ wr.buf := by
  simp [Writer.flush, logWritten]

/-- A message that has been flushed. -/
theorem good_flushing {l : List Msg} {w : Worker} {o : Out} {segs : Disk} (t : Bytes)
    (h : Good (l ++ [.static t]) w o segs) (ht : logWritten segs = logTexts (l ++ [.static t])) :
    Good (l ++ [.flushing (some t)]) w o segs := by
  have e1 : logTexts (l ++ [.flushing (some t)]) = logTexts (l ++ [.static t]) := by
    rw [logTexts_append, logTexts_append]; rfl
  have e2 : logPaths (l ++ [.flushing (some t)]) = logPaths (l ++ [.static t]) := by
    rw [logPaths_append, logPaths_append]; rfl
  refine ⟨e2 ▸ h.names, e1 ▸ h.total, ?_, ?_, h.files, h.stream, e2 ▸ h.writer, h.cap⟩
  · intro a p b e
    rcases split_snoc e with ⟨_, _, hx⟩ | ⟨b', e'⟩
    · simp at hx
    · exact h.placed a p (b' ++ [.static t]) (by rw [e']; simp)
  · intro a s b e ha
    rcases split_snoc e with ⟨_, rfl, hx⟩ | ⟨b', e'⟩
    · obtain rfl : t = s := by simpa using hx
      rw [e1, ← ht, List.take_of_length_le]
      have hn := h.names
      rw [logPaths_append] at hn
      have := congrArg List.length hn
      simp [logPaths] at this
      omega
    · exact h.flushed a s (b' ++ [.static t]) (by rw [e']; simp) ha

/-- The end of the worker after the messages `l`: what every named file got, and what was lost. -/
structure Over (l : List Msg) (o : Out) (segs : Disk) (lost : Bytes) : Prop where
  names : segs.map (·.1) = logPaths l
  total : logWritten segs ++ lost = logTexts l
  placed : ∀ a p b, l = a ++ Msg.setFile p :: b → logWritten (segs.take (logPaths a).length) <+: logTexts a
  flushed : ∀ a s b, l = a ++ Msg.flushing (some s) :: b → logPaths a ≠ [] →
    logTexts (a ++ [Msg.flushing (some s)]) <+: logWritten (segs.take (logPaths a).length)
  files : ∀ (p : String) (old : String → Bytes), o.disk.content old p = segs.content old p
  stream : logWritten o.disk = logWritten segs

theorem over_drop {l : List Msg} {w : Worker} {o : Out} {segs : Disk} (h : Good l w o segs) :
    Over l (dropWriter w.writer o) segs w.queue.flatten := by
  refine ⟨h.names, h.total, h.placed, h.flushed, ?_, ?_⟩
  · intro p old
    rw [← h.files p old]
    cases hw : w.writer with
    | none => simp [dropWriter, held]
    | some wr => simp only [dropWriter]; exact flush_file wr o.disk old p
  · rw [← h.stream]
    cases hw : w.writer with
    | none => simp [dropWriter]
    | some wr => simp only [dropWriter]; exact flush_stream wr o.disk

theorem good_take {l : List Msg} {w : Worker} {o : Out} {segs : Disk} (h : Good l w o segs) (m : Mode)
    (report : Bool) (x : Msg) (s : Bytes) (env : Env) (hx : logText x = s) (hp : logPaths [x] = [])
    (hf : ∀ e, x ≠ .flushing e) {r : Worker × Out} (hr : w.take m report s env o = .ok r) :
    ∃ segs', Good (l ++ [x]) r.1 r.2 segs' := by
  have h1 := good_push h x s hx hp (Or.inr hf)
  unfold Worker.take at hr
  dsimp only at hr
  obtain ⟨due, -, hr⟩ := of_bind_ok hr
  cases due with
  | false =>
    obtain rfl := Except.ok.inj hr
    exact ⟨segs, h1⟩
  | true =>
    cases hw : w.writer with
    | none =>
      simp only [hw, if_true] at hr
      obtain rfl := Except.ok.inj hr
      rw [hw] at h1
      exact ⟨segs, h1⟩
    | some wr =>
      simp only [hw, if_true] at hr
      obtain rfl := Except.ok.inj hr
      rw [hw] at h1
      rw [drain_eq]
      obtain ⟨segs', h2, -⟩ := good_write h1 rfl env.later
        (if report then o.console ++ [(w.queue ++ [s]).flatten] else o.console)
      exact ⟨segs', h2⟩

/-- Another file is opened. -/
theorem good_file {l : List Msg} {w : Worker} {o : Out} {segs : Disk} (h : Good l w o segs) (p : String) (o' : Out)
    (hf : ∀ (q : String) (old : String → Bytes), o'.disk.content old q = segs.content old q)
    (hs : logWritten o'.disk = logWritten segs) :
    Good (l ++ [.setFile p]) { w with writer := some ⟨p, []⟩ } o' (segs ++ [(p, [])]) := by
  have hn := h.names
  have hlen : segs.length = (logPaths l).length := by rw [← hn]; simp
  have e1 : logTexts (l ++ [.setFile p]) = logTexts l := by rw [logTexts_append]; simp [logTexts, logText]
  have e2 : logWritten (segs ++ [(p, [])]) = logWritten segs := by rw [logWritten_append]; simp [logWritten]
  refine ⟨?_, ?_, ?_, ?_, ?_, ?_, ?_, ?_⟩
  · rw [logPaths_append, ← hn]; simp [logPaths]
  · rw [e1, e2]; exact h.total
  · intro a q b e
    rcases split_snoc e with ⟨_, rfl, _⟩ | ⟨b', e'⟩
    · rw [List.take_append_of_le_length (by omega), List.take_of_length_le (by omega), ← h.total]
      exact List.prefix_append _ _
    · have h2 := paths_lt e'
      rw [List.take_append_of_le_length (by omega)]
      exact h.placed a q b' e'
  · intro a s b e ha
    rcases split_snoc e with ⟨_, _, hx⟩ | ⟨b', e'⟩
    · simp at hx
    · have : (logPaths a).length ≤ segs.length := by rw [hlen, e', logPaths_append]; simp
      rw [List.take_append_of_le_length this]
      exact h.flushed a s b' e' ha
  · intro q old
    rw [content_append, content_one, ← hf q old]
    simp [held]
  · rw [e2]; simpa using hs
  · rw [logPaths_append]; simp [logPaths]
  · intro wr hx
    obtain rfl := Option.some.inj hx
    simp

/-- One round of the worker. -/
theorem good_handle {l : List Msg} {w : Worker} {o : Out} {segs : Disk} (h : Good l w o segs) (m : Mode)
    (report : Bool) (x : Msg) (env : Env) :
    (∃ w' o', w.handle m report x env o = (.goes w', o') ∧ x ≠ .close ∧ ∃ segs', Good (l ++ [x]) w' o' segs') ∨
    (∃ o', w.handle m report x env o = (.ends, o') ∧ x = .close ∧
      ∃ segs' lost, Over l o' segs' lost ∧ (logPaths l ≠ [] → lost = [])) ∨
    (∃ o', w.handle m report x env o = (.panics, o') ∧ x ≠ .close ∧ ∃ segs' lost, Over l o' segs' lost) := by
  have dead : ∃ segs' lost, Over l (dropWriter w.writer o) segs' lost := ⟨segs, _, over_drop h⟩
  cases x with
  | lazy e =>
    cases e with
    | none => exact Or.inr (Or.inr ⟨_, rfl, by simp, dead⟩)
    | some s =>
      cases ht : w.take m report s env o with
      | error e => exact Or.inr (Or.inr ⟨_, by simp [Worker.handle, ht], by simp, dead⟩)
      | ok r =>
        exact Or.inl ⟨r.1, r.2, by simp [Worker.handle, ht], by simp,
          good_take h m report (.lazy (some s)) s env rfl rfl (by simp) ht⟩
  | static s =>
    cases ht : w.take m report s env o with
    | error e => exact Or.inr (Or.inr ⟨_, by simp [Worker.handle, ht], by simp, dead⟩)
    | ok r =>
      exact Or.inl ⟨r.1, r.2, by simp [Worker.handle, ht], by simp,
        good_take h m report (.static s) s env rfl rfl (by simp) ht⟩
  | flushing e =>
    cases e with
    | none => exact Or.inr (Or.inr ⟨_, rfl, by simp, dead⟩)
    | some s =>
      refine Or.inl ⟨_, _, rfl, by simp, ?_⟩
      dsimp only
      cases hw : w.writer with
      | none =>
        have hn : logPaths l = [] := by
          have := h.writer
          rw [hw] at this
          cases hl : logPaths l with
          | nil => rfl
          | cons a b => rw [hl] at this; simp [List.getLast?_cons] at this
        have h1 := good_push h (.flushing (some s)) s rfl rfl (Or.inl hn)
        rw [hw] at h1
        exact ⟨segs, h1⟩
      | some wr =>
        have h1 := good_push h (.static s) s rfl rfl (Or.inr (by simp))
        rw [hw] at h1
        dsimp only
        rw [drain_eq]
        obtain ⟨segs', h2, h3⟩ := good_write h1 rfl env.later
          (if report then o.console ++ [(w.queue ++ [s]).flatten] else o.console)
        exact ⟨segs', good_flushing s h2 h3⟩
  | setCore =>
    cases hc : env.core with
    | false => exact Or.inr (Or.inr ⟨_, by simp [Worker.handle, hc], by simp, dead⟩)
    | true =>
      exact Or.inl ⟨w, o, by simp [Worker.handle, hc], by simp, segs,
        good_idle h .setCore rfl rfl (by simp)⟩
  | close =>
    refine Or.inr (Or.inl ?_)
    cases hw : w.writer with
    | none =>
      refine ⟨o, by simp [Worker.handle, hw], rfl, segs, w.queue.flatten, ?_, ?_⟩
      · have := over_drop h
        rw [hw] at this
        exact this
      · intro hn
        have := h.writer
        rw [hw] at this
        cases hl : logPaths l with
        | nil => exact absurd hl hn
        | cons a b => rw [hl] at this; simp [List.getLast?_cons] at this
    | some wr =>
      refine ⟨_, by simp only [Worker.handle, hw]; rfl, rfl, ?_⟩
      obtain ⟨segs', h2, h3⟩ := good_write h hw 0 o.console
      refine ⟨segs', [], ⟨h2.names, by rw [List.append_nil]; exact h3, h2.placed, h2.flushed, ?_, ?_⟩, fun _ => rfl⟩
      · intro p old
        rw [← h2.files p old]
        simp only [dropWriter, flush_file]
        exact (congrArg _ (held_empty _ p)).trans (List.append_nil _)
      · rw [← h2.stream]
        simp only [dropWriter, flush_stream]
        simp [Writer.flush]
  | setFile p =>
    cases hw : w.writer with
    | none =>
      cases ho : env.opens with
      | false =>
        refine Or.inr (Or.inr ⟨o, by simp [Worker.handle, hw, ho], by simp, segs, w.queue.flatten, ?_⟩)
        have := over_drop h
        rw [hw] at this
        exact this
      | true =>
        refine Or.inl ⟨{ w with writer := some ⟨p, []⟩ }, o, by simp [Worker.handle, hw, ho], by simp,
          segs ++ [(p, [])], ?_⟩
        have hf := h.files
        have hst := h.stream
        rw [hw] at hf hst
        exact good_file h p o (by intro q old; rw [← hf q old]; simp [held]) (by rw [← hst]; simp)
    | some wr =>
      cases ho : env.opens with
      | false =>
        refine Or.inr (Or.inr ⟨_, by simp only [Worker.handle, hw, ho]; rfl, by simp, segs, w.queue.flatten,
          ?_⟩)
        have := over_drop h
        rw [hw] at this
        refine ⟨this.names, this.total, this.placed, this.flushed, ?_, ?_⟩
        · intro q old
          rw [← this.files q old]
          simp only [dropWriter, flush_file]
          exact (congrArg _ (held_empty _ q)).trans (List.append_nil _)
        · rw [← this.stream]
          simp only [dropWriter, flush_stream]
          simp [Writer.flush]
      | true =>
        refine Or.inl ⟨{ w with writer := some ⟨p, []⟩ }, _, by simp only [Worker.handle, hw, ho]; rfl, by simp,
          segs ++ [(p, [])], ?_⟩
        have hf := h.files
        have hst := h.stream
        rw [hw] at hf hst
        refine good_file h p _ ?_ ?_
        · intro q old
          rw [← hf q old]
          simp only [flush_file]
          exact (congrArg _ (held_empty _ q)).trans (List.append_nil _)
        · rw [← hst]
          simp only [flush_stream]
          simp [Writer.flush]

end Verif.Props
