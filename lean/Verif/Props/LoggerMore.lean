import Verif.Props.Logger
/-!
# Files, levels, delays, the console and the death of the logger (C119-C123)
-/
set_option autoImplicit false
namespace Verif.Props
open Verif Verif.TE.Log

/-! ## C119: several files -/

/-- C119: when the worker has ended in order, every file holds what it held before and then its part: there is one part
for each time a file was named, the parts together are all the texts in order, none of a file's part was sent after the
next file was named, and everything up to a flushing message sent while a file was open is in the parts up to that
file. -/
theorem C119_files (m : Mode) (t : Nat) (acts : List Act) (hw : ((Sys.init t).run m acts).thread = .ended)
    (hp : logPaths (beforeClose (logSends 0 acts)) ≠ []) :
    ∃ parts : List (String × Bytes),
      parts.map (·.1) = logPaths (beforeClose (logSends 0 acts)) ∧
      (parts.map (·.2)).flatten = logTexts (beforeClose (logSends 0 acts)) ∧
      (∀ a p b, beforeClose (logSends 0 acts) = a ++ Msg.setFile p :: b →
        ((parts.take (logPaths a).length).map (·.2)).flatten <+: logTexts a) ∧
      (∀ a s b, beforeClose (logSends 0 acts) = a ++ Msg.flushing (some s) :: b → logPaths a ≠ [] →
        logTexts a ++ s <+: ((parts.take (logPaths a).length).map (·.2)).flatten) ∧
      ∀ (old : String → Bytes) (p : String), ((Sys.init t).run m acts).out.disk.content old p =
        old p ++ ((parts.filter (·.1 = p)).map (·.2)).flatten := by
  obtain ⟨h, -⟩ := inv_reached m t acts
  unfold LogInv at h
  rw [hw] at h
  obtain ⟨l, rest, segs, lost, h1, h2, h3, h4⟩ := h
  rw [h1, beforeClose_of_split h2] at hp ⊢
  refine ⟨segs, h3.names, ?_, h3.placed, ?_, ?_⟩
  · have := h3.total
    rwa [h4 hp, List.append_nil] at this
  · intro a s b e ha
    have := h3.flushed a s b e ha
    rw [logTexts_append] at this
    have e2 : logTexts [Msg.flushing (some s)] = s := by simp [logTexts, logText]
    rw [e2] at this
    exact this
  · intro old p
    rw [h3.files p old]
    unfold Disk.content
    congr 2
    clear * -
    induction segs with
    | nil => rfl
    | cons x r ih =>
      by_cases hx : x.1 = p <;> simp [hx, ih]

/-! ## C120: levels -/

/-- C120: a log call below or at the level in force puts its message at the end of the channel, the others do nothing at
all - in particular before any level is set, when only level NIL passes. Once the worker is gone, a call that passes
panics. -/
theorem C120_call (m : Mode) (t : Nat) (acts : List Act) (l : Level) (e : Option Bytes) :
    ((Sys.init t).run m acts).step m (.log l e) =
      (if l.num ≤ ((Sys.init t).run m acts).maxLevel then
        match ((Sys.init t).run m acts).thread with
        | .running _ => .ok { ((Sys.init t).run m acts) with chan := ((Sys.init t).run m acts).chan ++ [.lazy e] }
        | _ => .error .unwrapNone
      else .ok ((Sys.init t).run m acts)) ∧
    ((Sys.init t).run m acts).step m (.flushingLog l e) =
      (if l.num ≤ ((Sys.init t).run m acts).maxLevel then
        match ((Sys.init t).run m acts).thread with
        | .running _ => .ok { ((Sys.init t).run m acts) with chan := ((Sys.init t).run m acts).chan ++ [.flushing e] }
        | _ => .error .unwrapNone
      else .ok ((Sys.init t).run m acts)) := by
  obtain ⟨-, h5⟩ := inv_reached m t acts
  exact ⟨log_act h5 l _, log_act h5 l _⟩

/-- The last level set, or NIL. -/
def lastLevel (acts : List Act) : Level :=
  ((acts.filterMap fun a => match a with | .setLevel l => some l | _ => none).getLast?).getD .nil

theorem maxLevel_act (m : Mode) (s : Sys) (a : Act) :
    (s.act m a).maxLevel = match a with | .setLevel l => l.num | _ => s.maxLevel := by
  have hlog (l : Level) (x : Msg) : (match s.log l x with | .ok s => s | .error _ => s).maxLevel = s.maxLevel := by
    unfold Sys.log Sys.send
    cases Level.read s.maxLevel with
    | error e => rfl
    | ok k =>
      dsimp only
      split_ifs
      · cases s.thread <;> rfl
      · rfl
  cases a with
  | log l e => exact hlog l _
  | flushingLog l e => exact hlog l _
  | control x => rw [act_control]; exact send_level x
  | setLevel l => rfl
  | setReport b => rfl
  | work env =>
    unfold Sys.act Sys.step
    dsimp only
    cases s.thread with
    | running w =>
      cases s.chan with
      | nil => rfl
      | cons x r =>
        dsimp only
        rcases w.handle m s.report x env s.out with ⟨⟨⟩, _⟩ <;> rfl
    | ended => rfl
    | dead => rfl

/-- The level in force is the last one set, NIL before any. -/
theorem C120_level (m : Mode) (t : Nat) (acts : List Act) :
    ((Sys.init t).run m acts).maxLevel = (lastLevel acts).num := by
  induction acts using List.reverseRecOn with
  | nil => rfl
  | append_singleton acts a ih =>
    rw [run_append]
    simp only [Sys.run]
    rw [maxLevel_act]
    unfold lastLevel at ih ⊢
    rw [List.filterMap_append]
    cases a <;> simp [ih]

theorem Level.order (a b : Level) : a.num ≤ b.num ↔
    (a = .nil ∨ b = .trace ∨ a = b ∨ (a = .error ∧ b ≠ .nil) ∨ (a = .warn ∧ (b = .info ∨ b = .debug)) ∨
      (a = .info ∧ b = .debug)) := by
  cases a <;> cases b <;> decide

/-! ## C121: how long a text is held back -/

theorem handled_of_running {m : Mode} {t : Nat} {acts : List Act} {w : Worker}
    (hw : ((Sys.init t).run m acts).thread = .running w) :
    ∃ l segs, logSends 0 acts = l ++ ((Sys.init t).run m acts).chan ∧ Msg.close ∉ l ∧
      Good l w ((Sys.init t).run m acts).out segs := by
  obtain ⟨h, -⟩ := inv_reached m t acts
  unfold LogInv at h
  rw [hw] at h
  exact h

/-- C121: when the worker takes a message after a file was named, and the message is a flushing one, or more than 2000000
nanoseconds have passed since the last write, or the number of messages in the queue and the length of this one exceed
2000000, then all but at most 8192 bytes of everything sent up to this message is in the files. -/
theorem C121_written (m : Mode) (t : Nat) (acts : List Act) (w : Worker) (env : Env) (x : Msg) (r : List Msg)
    (s : Bytes) (hw : ((Sys.init t).run m acts).thread = .running w)
    (hc : ((Sys.init t).run m acts).chan = x :: r)
    (hx : x = .flushing (some s) ∨
      ((x = .lazy (some s) ∨ x = .static s) ∧ w.last ≤ env.now ∧
        (env.now - w.last > 2000000 ∨ w.queue.length + s.length > 2000000)))
    (a : List Msg) (ha : logSends 0 acts = a ++ x :: r) (hf : logPaths a ≠ []) :
    ∃ rest : Bytes, rest.length ≤ 8192 ∧
      logTexts a ++ s = logWritten ((Sys.init t).run m (acts ++ [.work env])).out.disk ++ rest := by
  obtain ⟨l, segs, h1, h2, h3⟩ := handled_of_running hw
  rw [hc] at h1
  obtain rfl : a = l := List.append_cancel_right (ha.symm.trans h1)
  have hwr := h3.writer
  cases hww : w.writer with
  | none =>
    rw [hww] at hwr
    exact absurd (List.getLast?_eq_none_iff.1 hwr.symm) hf
  | some wr =>
    have key : w.handle m ((Sys.init t).run m acts).report x env ((Sys.init t).run m acts).out =
        (.goes ⟨[], env.later, some (wr.writeAll ((Sys.init t).run m acts).out.disk
          (w.queue ++ [s]).flatten).1⟩,
          ⟨(wr.writeAll ((Sys.init t).run m acts).out.disk (w.queue ++ [s]).flatten).2,
            if ((Sys.init t).run m acts).report then
              ((Sys.init t).run m acts).out.console ++ [(w.queue ++ [s]).flatten]
            else ((Sys.init t).run m acts).out.console⟩) := by
      rcases hx with rfl | ⟨hx, hn, hd⟩
      · simp only [Worker.handle, Worker.takeFlushing, hww]
        rw [drain_eq]
      · have hdue : w.due m s env.now = .ok true := by
          unfold Worker.due
          have hb : bufferSize = 2000000 := rfl
          have hfl : flushInterval = 2000000 := rfl
          split_ifs with hsz
          · rfl
          · rw [subU_ok hn]
            have : env.now - w.last > flushInterval := by
              rcases hd with hd | hd
              · omega
              · omega
            simp [bind, Except.bind, this]
        have htake : w.take m ((Sys.init t).run m acts).report s env ((Sys.init t).run m acts).out =
            .ok (⟨[], env.later, some (wr.writeAll ((Sys.init t).run m acts).out.disk (w.queue ++ [s]).flatten).1⟩,
              ⟨(wr.writeAll ((Sys.init t).run m acts).out.disk (w.queue ++ [s]).flatten).2,
                if ((Sys.init t).run m acts).report then
                  ((Sys.init t).run m acts).out.console ++ [(w.queue ++ [s]).flatten]
                else ((Sys.init t).run m acts).out.console⟩) := by
          unfold Worker.take
          rw [hdue]
          simp only [bind, Except.bind, if_true, hww]
          rw [drain_eq]
        rcases hx with rfl | rfl
        · simp only [Worker.handle, htake]
        · simp only [Worker.handle, htake]
    have hrun : ((Sys.init t).run m (acts ++ [.work env])).out.disk =
        (wr.writeAll ((Sys.init t).run m acts).out.disk (w.queue ++ [s]).flatten).2 := by
      rw [run_append]
      simp only [Sys.run, Sys.act, Sys.step, hw, hc, key]
    rw [hrun]
    refine ⟨(wr.writeAll ((Sys.init t).run m acts).out.disk (w.queue ++ [s]).flatten).1.buf,
      writeAll_cap _ _ _ (h3.cap wr hww), ?_⟩
    rw [writeAll_stream, ← h3.total, ← h3.stream, hww]
    simp

/-- A flushing message is not in the file when the worker has taken it: in a file just opened, no text shorter than
8192 bytes is. -/
theorem C121_flushing_not_on_disk (m : Mode) (t : Nat) (e1 e2 : Env) (h1 : e1.opens = true) (s : Bytes)
    (hs : s.length < 8192) :
    let acts := [Act.setLevel .info, .control (.setFile "log"), .work e1, .flushingLog .info (some s), .work e2]
    ((Sys.init t).run m acts).chan = [] ∧ ((Sys.init t).run m acts).out.disk = [] ∧
    logSends 0 acts = [.setFile "log", .flushing (some s)] := by
  refine ⟨?_, ?_, rfl⟩ <;>
  simp [Sys.run, Sys.act, Sys.step, Sys.send, Sys.init, Sys.log, Level.num, Level.read, Worker.handle, h1,
    Worker.takeFlushing, Worker.drain, Writer.writeAll, capacity, hs]

/-- The queue is bounded by the number of messages, not by their bytes: two texts of up to 1999999 bytes each wait
together. -/
theorem C121_bytes_not_bounded (m : Mode) (t : Nat) (e : Env) (h1 : e.opens = true) (ht : e.now = t) (s : Bytes)
    (hs : s.length ≤ 1999999) :
    let acts := [Act.setLevel .info, .control (.setFile "log"), .work e, .log .info (some s), .work e,
      .log .info (some s), .work e]
    ∃ w, ((Sys.init t).run m acts).thread = .running w ∧ w.queue = [s, s] ∧
      ((Sys.init t).run m acts).out.disk = [] := by
  have h0 : ¬ s.length > 2000000 := by omega
  have h2 : ¬ 1 + s.length > 2000000 := by omega
  have hd0 (wr : Option Writer) : Worker.due m ⟨[], t, wr⟩ s t = .ok false := by
    simp [Worker.due, bufferSize, flushInterval, subU_ok, bind, Except.bind]
    omega
  have hd1 (wr : Option Writer) : Worker.due m ⟨[s], t, wr⟩ s t = .ok false := by
    simp [Worker.due, bufferSize, flushInterval, subU_ok, bind, Except.bind]
    omega
  simp [Sys.run, Sys.act, Sys.step, Sys.send, Sys.init, Sys.log, Level.num, Level.read, Worker.handle, h1, ht,
    Worker.take, hd0, hd1, bind, Except.bind]

/-! ## C122: the console -/

/-- What has been printed agrees with what has been handed to the writer. -/
def ConsoleInv (s : Sys) : Prop :=
  s.report = true ∧
  match s.thread with
  | .running w => s.out.console.flatten = logWritten s.out.disk ++ w.writer.elim [] (·.buf)
  | _ => s.out.console.flatten <+: logWritten s.out.disk

theorem drop_written (w : Option Writer) (o : Out) :
    logWritten (dropWriter w o).disk = logWritten o.disk ++ w.elim [] (·.buf) ∧
      (dropWriter w o).console = o.console := by
  cases w with
  | none => simp [dropWriter]
  | some wr => exact ⟨flush_stream wr o.disk, rfl⟩

theorem take_console {m : Mode} {w : Worker} {s : Bytes} {env : Env} {o : Out} {r : Worker × Out}
    (h : o.console.flatten = logWritten o.disk ++ w.writer.elim [] (·.buf))
    (hr : w.take m true s env o = .ok r) :
    r.2.console.flatten = logWritten r.2.disk ++ r.1.writer.elim [] (·.buf) := by
  unfold Worker.take at hr
  obtain ⟨due, -, hr⟩ := of_bind_ok hr
  cases due with
  | false => obtain rfl := Except.ok.inj hr; exact h
  | true =>
    cases hw : w.writer with
    | none =>
      simp only [hw, if_true] at hr
      obtain rfl := Except.ok.inj hr
      rw [hw] at h
      exact h
    | some wr =>
      simp only [hw, if_true] at hr
      obtain rfl := Except.ok.inj hr
      rw [drain_eq]
      rw [hw] at h
      have := writeAll_stream wr o.disk (w.queue ++ [s]).flatten
      simp only [Option.elim, if_true, List.flatten_append, List.flatten_cons, List.flatten_nil] at h ⊢
      rw [h]
      simpa using this.symm

theorem handle_console {m : Mode} {w : Worker} {x : Msg} {env : Env} {o : Out}
    (h : o.console.flatten = logWritten o.disk ++ w.writer.elim [] (·.buf)) :
    match w.handle m true x env o with
    | (.goes w', o') => o'.console.flatten = logWritten o'.disk ++ w'.writer.elim [] (·.buf)
    | (_, o') => o'.console.flatten <+: logWritten o'.disk := by
  have dead : (dropWriter w.writer o).console.flatten <+: logWritten (dropWriter w.writer o).disk := by
    rw [(drop_written w.writer o).1, (drop_written w.writer o).2, h]
  cases x with
  | lazy e =>
    cases e with
    | none => exact dead
    | some s =>
      unfold Worker.handle
      dsimp only
      cases ht : w.take m true s env o with
      | error e => exact dead
      | ok r => exact take_console h ht
  | static s =>
    unfold Worker.handle
    dsimp only
    cases ht : w.take m true s env o with
    | error e => exact dead
    | ok r => exact take_console h ht
  | flushing e =>
    cases e with
    | none => exact dead
    | some s =>
      unfold Worker.handle Worker.takeFlushing
      dsimp only
      cases hw : w.writer with
      | none => rw [hw] at h; exact h
      | some wr =>
        dsimp only
        rw [drain_eq]
        rw [hw] at h
        have := writeAll_stream wr o.disk (w.queue ++ [s]).flatten
        simp only [Option.elim, if_true, List.flatten_append, List.flatten_cons, List.flatten_nil] at h ⊢
        rw [h]
        simpa using this.symm
  | setCore =>
    unfold Worker.handle
    dsimp only
    cases env.core with
    | false => exact dead
    | true => exact h
  | setFile p =>
    unfold Worker.handle
    dsimp only
    cases hw : w.writer with
    | none =>
      rw [hw] at h
      cases env.opens with
      | false => simp only [Option.elim, List.append_nil] at h; simp [h]
      | true => exact h
    | some wr =>
      rw [hw] at h
      cases env.opens with
      | false =>
        simp only [Bool.false_eq_true, if_false]
        rw [(drop_written _ _).1, (drop_written _ _).2, h, flush_stream]
        exact List.prefix_append _ _
      | true =>
        simp only [if_true]
        rw [flush_stream, flush_stream, h]
        simp [Writer.flush]
  | close =>
    unfold Worker.handle
    dsimp only
    cases hw : w.writer with
    | none =>
      rw [hw] at h
      simp only [Option.elim, List.append_nil] at h
      simp [h]
    | some wr =>
      rw [hw] at h
      dsimp only
      rw [(drop_written _ _).1, (drop_written _ _).2, h, flush_stream]
      have := writeAll_stream wr o.disk w.queue.flatten
      rw [this]
      simp only [Option.elim, List.append_assoc]
      exact List.prefix_append_right_inj _ |>.2 (List.prefix_append _ _)

theorem console_act {m : Mode} {s : Sys} (h : ConsoleInv s) (h5 : s.maxLevel ≤ 5) (a : Act)
    (ha : ∀ b, a = .setReport b → b = true) : ConsoleInv (s.act m a) := by
  have hsend (x : Msg) : ConsoleInv (match s.send x with | .ok s => s | .error _ => s) := by
    unfold Sys.send
    cases ht : s.thread with
    | running w =>
      refine ⟨h.1, ?_⟩
      have := h.2
      rw [ht] at this
      exact this
    | ended => exact h
    | dead => exact h
  cases a with
  | log l e => rw [act_log h5]; split_ifs; exacts [hsend _, h]
  | flushingLog l e => rw [act_flushing h5]; split_ifs; exacts [hsend _, h]
  | control x => rw [act_control]; exact hsend x
  | setLevel l => exact h
  | setReport b => exact ⟨ha b rfl, h.2⟩
  | work env =>
    unfold Sys.act Sys.step
    dsimp only
    cases ht : s.thread with
    | ended => exact h
    | dead => exact h
    | running w =>
      cases hc : s.chan with
      | nil => exact h
      | cons x r =>
        have h2 := h.2
        rw [ht] at h2
        have := handle_console (m := m) (x := x) (env := env) h2
        dsimp only
        rw [h.1]
        rcases hh : w.handle m true x env s.out with ⟨⟨w'⟩ | _ | _, o'⟩ <;> rw [hh] at this <;>
          exact ⟨rfl, this⟩

theorem console_run {m : Mode} (acts : List Act) : ∀ s, ConsoleInv s → s.maxLevel ≤ 5 →
    (∀ b, Act.setReport b ∈ acts → b = true) → ConsoleInv (s.run m acts) := by
  induction acts with
  | nil => exact fun s h _ _ => h
  | cons a acts ih =>
    intro s h h5 ha
    refine ih _ (console_act h h5 a fun b e => ha b (by simp [e])) ?_ fun b hb => ha b (List.mem_cons_of_mem _ hb)
    rw [maxLevel_act]
    cases a <;> first | exact h5 | exact Level.num_le _

/-- C122: with the report switched on from the start, the console shows the texts in order, once: all that is not still
in the queue or in the channel while the worker runs, and always a prefix of what was sent. -/
theorem C122_console (m : Mode) (t : Nat) (acts : List Act) (ha : ∀ b, Act.setReport b ∈ acts → b = true) :
    ((Sys.init t).run m (.setReport true :: acts)).out.console.flatten <+:
      logTexts (beforeClose (logSends 0 acts)) ∧
    ∀ w, ((Sys.init t).run m (.setReport true :: acts)).thread = .running w →
      logTexts (logSends 0 acts) = ((Sys.init t).run m (.setReport true :: acts)).out.console.flatten ++
        w.queue.flatten ++ logTexts ((Sys.init t).run m (.setReport true :: acts)).chan := by
  have hc : ConsoleInv ((Sys.init t).run m (.setReport true :: acts)) :=
    console_run acts { Sys.init t with report := true } ⟨rfl, rfl⟩ (Nat.zero_le _) ha
  obtain ⟨hi, -⟩ := inv_reached m t (.setReport true :: acts)
  have hp := C117_prefix m t (.setReport true :: acts)
  change LogInv (logSends 0 acts) _ at hi
  change _ <+: logTexts (beforeClose (logSends 0 acts)) at hp
  constructor
  · have h2 := hc.2
    cases ht : ((Sys.init t).run m (.setReport true :: acts)).thread with
    | running w =>
      rw [ht] at h2
      unfold LogInv at hi
      rw [ht] at hi
      obtain ⟨l, segs, h1, h2', h3⟩ := hi
      rw [h1]
      refine List.IsPrefix.trans ?_ (logTexts_prefix (prefix_beforeClose h2'))
      dsimp only at h2
      rw [h2, h3.stream, ← h3.total]
      exact List.prefix_append _ _
    | ended => rw [ht] at h2; exact List.IsPrefix.trans h2 hp
    | dead => rw [ht] at h2; exact List.IsPrefix.trans h2 hp
  · intro w hw
    have h2 := hc.2
    rw [hw] at h2
    dsimp only at h2
    rw [h2]
    exact C117_held m t (.setReport true :: acts) w hw

/-- The texts written at the end are not shown: the last message before the end is missing on the console. -/
theorem C122_end_not_shown (m : Mode) (t : Nat) (e : Env) (h1 : e.opens = true) (ht : e.now = t) (s : Bytes)
    (hs : s.length ≤ 1999999) :
    let acts := [Act.setReport true, .setLevel .info, .control (.setFile "log"), .work e, .log .info (some s), .work e,
      .control .close, .work e]
    ((Sys.init t).run m acts).thread = .ended ∧ ((Sys.init t).run m acts).out.console = [] ∧
      logWritten ((Sys.init t).run m acts).out.disk = s := by
  intro acts
  have hd0 (wr : Option Writer) : Worker.due m ⟨[], t, wr⟩ s t = .ok false := by
    simp [Worker.due, bufferSize, flushInterval, subU_ok, bind, Except.bind]
    omega
  have h2 : ((Sys.init t).run m acts).thread = .ended ∧ ((Sys.init t).run m acts).out.console = [] := by
    constructor <;>
    simp [acts, Sys.run, Sys.act, Sys.step, Sys.send, Sys.init, Sys.log, Level.num, Level.read, Worker.handle, h1, ht,
      Worker.take, hd0, bind, Except.bind, dropWriter]
  refine ⟨h2.1, h2.2, ?_⟩
  have hb : beforeClose (logSends 0 acts) = [.setFile "log", .lazy (some s)] := by
    have : logSends 0 acts = [.setFile "log", .lazy (some s)] ++ Msg.close :: [] := rfl
    rw [this]
    exact beforeClose_of_split (by simp)
  rw [C118_complete m t acts h2.1 (by rw [hb]; simp [logPaths]), hb]
  simp [logTexts, logText]

/-- Without the report nothing is shown. -/
theorem C122_silent (m : Mode) (t : Nat) (acts : List Act) (ha : Act.setReport true ∉ acts) :
    ((Sys.init t).run m acts).out.console = [] := by
  suffices h : ∀ (acts : List Act) (s : Sys), s.report = false → s.out.console = [] → Act.setReport true ∉ acts →
      (s.run m acts).out.console = [] from h acts _ rfl rfl ha
  intro acts
  induction acts with
  | nil => exact fun s _ h _ => h
  | cons a acts ih =>
    intro s hr hc ha
    have ha1 : Act.setReport true ∉ acts := fun h => ha (List.mem_cons_of_mem _ h)
    have hlog (l : Level) (x : Msg) : (match s.log l x with | .ok s => s | .error _ => s).report = false ∧
        (match s.log l x with | .ok s => s | .error _ => s).out.console = [] := by
      unfold Sys.log Sys.send
      cases Level.read s.maxLevel with
      | error e => exact ⟨hr, hc⟩
      | ok k =>
        dsimp only
        split_ifs
        · cases s.thread <;> exact ⟨hr, hc⟩
        · exact ⟨hr, hc⟩
    cases a with
    | log l e => exact ih _ (hlog l _).1 (hlog l _).2 ha1
    | flushingLog l e => exact ih _ (hlog l _).1 (hlog l _).2 ha1
    | control x =>
      refine ih _ ?_ ?_ ha1 <;> rw [act_control] <;> unfold Sys.send <;> cases s.thread <;> first | exact hr | exact hc
    | setLevel l => exact ih { s with maxLevel := l.num } hr hc ha1
    | setReport b =>
      cases b with
      | false => exact ih { s with report := false } rfl hc ha1
      | true => exact absurd List.mem_cons_self ha
    | work env =>
      have hd (w : Option Writer) : (dropWriter w s.out).console = [] := by rw [(drop_written w s.out).2, hc]
      have hh : ∀ (w : Worker) (x : Msg), (w.handle m false x env s.out).2.console = [] := by
        have htake (w : Worker) (b : Bytes) (r : Worker × Out) (h : w.take m false b env s.out = .ok r) :
            r.2.console = [] := by
          unfold Worker.take at h
          obtain ⟨due, -, h⟩ := of_bind_ok h
          cases due with
          | false => obtain rfl := Except.ok.inj h; exact hc
          | true =>
            cases hw : w.writer with
            | none => simp only [hw, if_true] at h; obtain rfl := Except.ok.inj h; exact hc
            | some wr => simp only [hw, if_true] at h; obtain rfl := Except.ok.inj h; exact hc
        intro w x
        unfold Worker.handle
        cases x with
        | lazy e =>
          cases e with
          | none => exact hd _
          | some b =>
            dsimp only
            cases ht : w.take m false b env s.out with
            | error e => exact hd _
            | ok r => exact htake w b r ht
        | static b =>
          dsimp only
          cases ht : w.take m false b env s.out with
          | error e => exact hd _
          | ok r => exact htake w b r ht
        | flushing e =>
          cases e with
          | none => exact hd _
          | some b =>
            unfold Worker.takeFlushing
            dsimp only
            cases w.writer with
            | none => exact hc
            | some wr => exact hc
        | setCore => dsimp only; split_ifs; exacts [hc, hd _]
        | setFile p =>
          dsimp only
          cases w.writer with
          | none => dsimp only; split_ifs <;> exact hc
          | some wr => dsimp only; split_ifs <;> exact hc
        | close =>
          dsimp only
          cases w.writer with
          | none => exact hc
          | some wr => exact hc
      refine ih _ ?_ ?_ ha1
      · unfold Sys.act Sys.step
        dsimp only
        cases s.thread with
        | ended => exact hr
        | dead => exact hr
        | running w =>
          cases s.chan with
          | nil => exact hr
          | cons x r =>
            dsimp only
            rcases w.handle m s.report x env s.out with ⟨⟨⟩, _⟩ <;> exact hr
      · unfold Sys.act Sys.step
        dsimp only
        cases s.thread with
        | ended => exact hc
        | dead => exact hc
        | running w =>
          cases s.chan with
          | nil => exact hc
          | cons x r =>
            dsimp only
            have := hh w x
            rw [hr]
            rcases h : w.handle m false x env s.out with ⟨⟨⟩, _⟩ <;> rw [h] at this <;> exact this

/-! ## C123: the end of the worker -/

/-- C123: once the worker is gone nothing is ever written or shown again. -/
theorem C123_gone (m : Mode) (s : Sys) (h : ∀ w, s.thread ≠ .running w) (acts : List Act) :
    (s.run m acts).out = s.out ∧ (s.run m acts).thread = s.thread := by
  induction acts generalizing s with
  | nil => exact ⟨rfl, rfl⟩
  | cons a acts ih =>
    have key : (s.act m a).out = s.out ∧ (s.act m a).thread = s.thread := by
      have hlog (l : Level) (x : Msg) : (match s.log l x with | .ok s => s | .error _ => s).out = s.out ∧
          (match s.log l x with | .ok s => s | .error _ => s).thread = s.thread := by
        unfold Sys.log Sys.send
        cases Level.read s.maxLevel with
        | error e => exact ⟨rfl, rfl⟩
        | ok k =>
          dsimp only
          split_ifs
          · cases ht : s.thread with
            | running w => exact absurd ht (h w)
            | ended => exact ⟨rfl, ht⟩
            | dead => exact ⟨rfl, ht⟩
          · exact ⟨rfl, rfl⟩
      cases a with
      | log l e => exact hlog l _
      | flushingLog l e => exact hlog l _
      | control x =>
        rw [act_control]
        unfold Sys.send
        cases ht : s.thread with
        | running w => exact absurd ht (h w)
        | ended => exact ⟨rfl, ht⟩
        | dead => exact ⟨rfl, ht⟩
      | setLevel l => exact ⟨rfl, rfl⟩
      | setReport b => exact ⟨rfl, rfl⟩
      | work env =>
        unfold Sys.act Sys.step
        dsimp only
        cases ht : s.thread with
        | running w => exact absurd ht (h w)
        | ended => exact ⟨rfl, ht⟩
        | dead => exact ⟨rfl, ht⟩
    have := ih (s.act m a) (by rw [key.2]; exact h)
    exact ⟨this.1.trans key.1, this.2.trans key.2⟩

theorem take_panics (m : Mode) (report : Bool) (w : Worker) (s : Bytes) (env : Env) (o : Out) :
    (∃ e, w.take m report s env o = .error e) ↔
      m = .checked ∧ w.queue.length + s.length ≤ 2000000 ∧ env.now < w.last := by
  have hb : bufferSize = 2000000 := rfl
  constructor
  · rintro ⟨e, he⟩
    unfold Worker.take at he
    cases hd : w.due m s env.now with
    | ok b =>
      rw [hd] at he
      exfalso
      cases b with
      | false => cases he
      | true =>
        simp only [bind, Except.bind, if_true] at he
        cases hw : w.writer with
        | none => rw [hw] at he; cases he
        | some wr => rw [hw] at he; cases he
    | error f =>
      unfold Worker.due at hd
      split_ifs at hd with h1
      unfold subU at hd
      split_ifs at hd with h2
      · cases hd
      · cases m with
        | wrapping => cases hd
        | checked => exact ⟨rfl, by omega, by omega⟩
  · rintro ⟨rfl, h1, h2⟩
    have hd : w.due .checked s env.now = .error .overflow := by
      unfold Worker.due subU
      rw [if_neg (by omega), if_neg (by omega)]
      rfl
    exact ⟨.overflow, by unfold Worker.take; rw [hd]; rfl⟩

/-- The worker dies exactly when the text of a message cannot be computed, a file cannot be opened, the thread cannot be
bound to a core, or - in a debug build - the clock is behind the last write. -/
theorem C123_dies (m : Mode) (s : Sys) (w : Worker) (x : Msg) (r : List Msg) (env : Env) (hw : s.thread = .running w)
    (hc : s.chan = x :: r) :
    (s.act m (.work env)).thread = .dead ↔
      x = .lazy none ∨ x = .flushing none ∨ (∃ p, x = .setFile p ∧ env.opens = false) ∨
      (x = .setCore ∧ env.core = false) ∨
      (∃ b, (x = .lazy (some b) ∨ x = .static b) ∧ m = .checked ∧ w.queue.length + b.length ≤ 2000000 ∧
        env.now < w.last) := by
  have hdead : (s.act m (.work env)).thread = .dead ↔ ∃ o', w.handle m s.report x env s.out = (.panics, o') := by
    unfold Sys.act Sys.step
    dsimp only
    rw [hw, hc]
    dsimp only
    rcases h : w.handle m s.report x env s.out with ⟨⟨w'⟩ | _ | _, o'⟩ <;> simp
  have hiff (b : Bytes) : (∃ o', (match w.take m s.report b env s.out with
      | .ok (w, o) => (Outcome.goes w, o)
      | .error _ => (Outcome.panics, dropWriter w.writer s.out)) = (Outcome.panics, o')) ↔
      m = .checked ∧ w.queue.length + b.length ≤ 2000000 ∧ env.now < w.last := by
    rw [← take_panics m s.report w b env s.out]
    cases w.take m s.report b env s.out with
    | ok r => simp
    | error f => simp
  rw [hdead]
  clear hdead
  cases x with
  | lazy e =>
    cases e with
    | none => simp [Worker.handle]
    | some b => exact (hiff b).trans (by simp)
  | static b => exact (hiff b).trans (by simp)
  | flushing e =>
    cases e with
    | none => simp [Worker.handle]
    | some b => simp [Worker.handle]
  | setCore => cases hcore : env.core <;> simp [Worker.handle, hcore]
  | setFile p => cases ho : env.opens <;> cases hww : w.writer <;> simp [Worker.handle, ho, hww]
  | close => cases hww : w.writer <;> simp [Worker.handle, hww]

/-- When it dies, what it had handed to the writer is in the files and its queue is lost. -/
theorem C123_lost (m : Mode) (t : Nat) (acts : List Act) (w : Worker) (x : Msg) (r : List Msg) (env : Env)
    (hw : ((Sys.init t).run m acts).thread = .running w) (hc : ((Sys.init t).run m acts).chan = x :: r)
    (hd : ((Sys.init t).run m (acts ++ [.work env])).thread = .dead) (a : List Msg)
    (ha : logSends 0 acts = a ++ x :: r) :
    logWritten ((Sys.init t).run m (acts ++ [.work env])).out.disk ++ w.queue.flatten = logTexts a := by
  obtain ⟨l, segs, h1, h2, h3⟩ := handled_of_running hw
  rw [hc] at h1
  obtain rfl : a = l := List.append_cancel_right (ha.symm.trans h1)
  have hdw := drop_written w.writer ((Sys.init t).run m acts).out
  have goal : ∀ o', w.handle m ((Sys.init t).run m acts).report x env ((Sys.init t).run m acts).out = (.panics, o') →
      logWritten o'.disk = logWritten ((Sys.init t).run m acts).out.disk ++ w.writer.elim [] (·.buf) := by
    intro o' ho
    cases x with
    | lazy e =>
      cases e with
      | none => obtain rfl := (Prod.mk.inj ho).2; exact hdw.1
      | some b =>
        unfold Worker.handle at ho
        dsimp only at ho
        split at ho
        · cases ho
        · obtain rfl := (Prod.mk.inj ho).2; exact hdw.1
    | static b =>
      unfold Worker.handle at ho
      dsimp only at ho
      split at ho
      · cases ho
      · obtain rfl := (Prod.mk.inj ho).2; exact hdw.1
    | flushing e =>
      cases e with
      | none => obtain rfl := (Prod.mk.inj ho).2; exact hdw.1
      | some b => cases ho
    | setCore =>
      unfold Worker.handle at ho
      dsimp only at ho
      split_ifs at ho
      · cases ho
      · obtain rfl := (Prod.mk.inj ho).2; exact hdw.1
    | setFile p =>
      unfold Worker.handle at ho
      dsimp only at ho
      cases hww : w.writer with
      | none =>
        rw [hww] at ho
        dsimp only at ho
        split_ifs at ho
        · cases ho
        · obtain rfl := (Prod.mk.inj ho).2; simp
      | some wr =>
        rw [hww] at ho
        dsimp only at ho
        split_ifs at ho
        · cases ho
        · obtain rfl := (Prod.mk.inj ho).2
          rw [(drop_written _ _).1, flush_stream]
          simp [Writer.flush]
    | close =>
      unfold Worker.handle at ho
      dsimp only at ho
      cases hww : w.writer <;> rw [hww] at ho <;> cases ho
  rw [run_append] at hd ⊢
  simp only [Sys.run, Sys.act, Sys.step, hw, hc] at hd ⊢
  rcases h : w.handle m ((Sys.init t).run m acts).report x env ((Sys.init t).run m acts).out with ⟨⟨w'⟩ | _ | _, o'⟩
  · rw [h] at hd; cases hd
  · rw [h] at hd; cases hd
  · dsimp only
    rw [goal o' h, h3.stream, h3.total]

/-! ## Concrete executions -/

/-- An outside that behaves, at time `n`. -/
def calmEnv (n : Nat) : Env := ⟨n, n, true, true⟩

/-- A program: it starts the logger, logs "a", a detail below the level, and "b", and ends; a second thread logs "c" too
late. -/
def sampleActs : List Act :=
  [.setLevel .info, .control .setCore, .control (.setFile "x.log"), .log .info (some [97, 10]),
    .log .debug (some [100, 10]), .work (calmEnv 5), .flushingLog .error (some [98, 10]), .control .close,
    .log .info (some [99, 10]), .work (calmEnv 6), .work (calmEnv 7), .work (calmEnv 8), .work (calmEnv 9)]

/-- C117, C118, C120 on it: the file holds its old text, "a" and "b". -/
theorem sample_log (m : Mode) : ((Sys.init 1).run m sampleActs).thread = .ended ∧
    ((Sys.init 1).run m sampleActs).out.disk.content (fun _ => [33]) "x.log" = [33, 97, 10, 98, 10] ∧
    logPaths (beforeClose (logSends 0 sampleActs)) = ["x.log"] := by
  have h1 : ((Sys.init 1).run m sampleActs).thread = .ended := by cases m <;> rfl
  have h2 : beforeClose (logSends 0 sampleActs) =
      [.setCore, .setFile "x.log", .lazy (some [97, 10]), .flushing (some [98, 10])] :=
    beforeClose_of_split
      (l := [.setCore, .setFile "x.log", .lazy (some [97, 10]), .flushing (some [98, 10])])
      (r := [.lazy (some [99, 10])]) (by simp)
  have h3 : logPaths (beforeClose (logSends 0 sampleActs)) = ["x.log"] := by rw [h2]; rfl
  refine ⟨h1, ?_, h3⟩
  have := C118_one_file m 1 sampleActs (fun _ => [33]) "x.log" h1 h3 "x.log"
  rw [this, h2]
  rfl

/-- The hypotheses of `C118_finalize` on a program that logs and ends in order. -/
example (m : Mode) : ((Sys.init 1).run m ([.setLevel .info, .control (.setFile "x.log"), .log .info (some [97, 10])] ++
    .control .close :: [calmEnv 5, calmEnv 6, calmEnv 7].map .work)).thread = .ended := by
  refine (C118_finalize m 1 [.setLevel .info, .control (.setFile "x.log"), .log .info (some [97, 10])]
    [calmEnv 5, calmEnv 6, calmEnv 7] ?_ ?_ (by decide)).1
  · intro x hx
    have : x = .setFile "x.log" ∨ x = .lazy (some [97, 10]) := by simpa [logSends, Level.num] using hx
    rcases this with rfl | rfl
    · trivial
    · rfl
  · simp [Calm, calmEnv]

/-- Two files (C119): "a" is flushed to the first, "b" waits and goes to the second. -/
example (m : Mode) :
    let acts := [Act.setLevel .info, .control (.setFile "1"), .flushingLog .info (some [97]), .log .info (some [98]),
      .control (.setFile "2"), .control .close] ++ [2, 3, 4, 5, 6].map fun n => .work (calmEnv n)
    ((Sys.init 1).run m acts).thread = .ended ∧
    ((Sys.init 1).run m acts).out.disk.content (fun _ => []) "1" = [97] ∧
    ((Sys.init 1).run m acts).out.disk.content (fun _ => []) "2" = [98] := by
  cases m <;> exact ⟨rfl, by decide +kernel, by decide +kernel⟩

end Verif.Props
