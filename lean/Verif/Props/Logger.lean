import Verif.Props.LoggerCore
/-!
# The logger loses, repeats and reorders nothing (C117-C122)
-/
set_option autoImplicit false
namespace Verif.Props
open Verif Verif.TE.Log

/-- The state of the logger after `sent` has been sent. -/
def LogInv (sent : List Msg) (s : Sys) : Prop :=
  match s.thread with
  | .running w => ∃ l segs, sent = l ++ s.chan ∧ Msg.close ∉ l ∧ Good l w s.out segs
  | .ended => ∃ l rest segs lost, sent = l ++ Msg.close :: rest ∧ Msg.close ∉ l ∧ Over l s.out segs lost ∧
      (logPaths l ≠ [] → lost = [])
  | .dead => ∃ l x rest segs lost, sent = l ++ x :: rest ∧ Msg.close ∉ l ∧ x ≠ Msg.close ∧ Over l s.out segs lost

theorem Level.num_le (l : Level) : l.num ≤ 5 := by cases l <;> decide

theorem Level.read_num {n : Nat} (h : n ≤ 5) : ∃ l, Level.read n = .ok l ∧ l.num = n := by
  have : n = 0 ∨ n = 1 ∨ n = 2 ∨ n = 3 ∨ n = 4 ∨ n = 5 := by omega
  rcases this with rfl | rfl | rfl | rfl | rfl | rfl <;> exact ⟨_, rfl, rfl⟩

/-- Sending while the level admits it. -/
theorem log_act {s : Sys} (h5 : s.maxLevel ≤ 5) (l : Level) (x : Msg) :
    s.log l x = if l.num ≤ s.maxLevel then
      match s.thread with
      | .running _ => .ok { s with chan := s.chan ++ [x] }
      | _ => .error .unwrapNone
    else .ok s := by
  obtain ⟨k, hk, hn⟩ := Level.read_num h5
  unfold Sys.log Sys.send
  rw [hk]
  simp only [hn]
  split_ifs
  · cases s.thread <;> rfl
  · rfl

theorem inv_send {sent : List Msg} {s : Sys} (h : LogInv sent s) (x : Msg) :
    LogInv (sent ++ [x]) (match s.send x with | .ok s => s | .error _ => s) := by
  unfold Sys.send
  cases ht : s.thread with
  | running w =>
    simp only [LogInv, ht] at h ⊢
    obtain ⟨l, segs, h1, h2, h3⟩ := h
    exact ⟨l, segs, by rw [h1, List.append_assoc], h2, h3⟩
  | ended =>
    simp only [LogInv, ht] at h ⊢
    obtain ⟨l, rest, segs, lost, h1, h2⟩ := h
    exact ⟨l, rest ++ [x], segs, lost, by rw [h1]; simp, h2⟩
  | dead =>
    simp only [LogInv, ht] at h ⊢
    obtain ⟨l, y, rest, segs, lost, h1, h2⟩ := h
    exact ⟨l, y, rest ++ [x], segs, lost, by rw [h1]; simp, h2⟩

theorem act_log {m : Mode} {s : Sys} (h5 : s.maxLevel ≤ 5) (l : Level) (e : Option Bytes) :
    s.act m (.log l e) = if l.num ≤ s.maxLevel then (match s.send (.lazy e) with | .ok s => s | .error _ => s) else s := by
  unfold Sys.act Sys.step
  dsimp only
  rw [log_act h5]
  unfold Sys.send
  split_ifs
  · cases s.thread <;> rfl
  · rfl

theorem act_flushing {m : Mode} {s : Sys} (h5 : s.maxLevel ≤ 5) (l : Level) (e : Option Bytes) :
    s.act m (.flushingLog l e) =
      if l.num ≤ s.maxLevel then (match s.send (.flushing e) with | .ok s => s | .error _ => s) else s := by
  unfold Sys.act Sys.step
  dsimp only
  rw [log_act h5]
  unfold Sys.send
  split_ifs
  · cases s.thread <;> rfl
  · rfl

theorem act_control {m : Mode} {s : Sys} (x : Msg) :
    s.act m (.control x) = (match s.send x with | .ok s => s | .error _ => s) := by
  unfold Sys.act Sys.step
  dsimp only
  cases s.send x <;> rfl

theorem send_level {s : Sys} (x : Msg) : (match s.send x with | .ok s => s | .error _ => s).maxLevel = s.maxLevel := by
  unfold Sys.send
  cases s.thread <;> rfl

theorem inv_work {sent : List Msg} {s : Sys} (h : LogInv sent s) (m : Mode) (env : Env) :
    LogInv sent (s.act m (.work env)) ∧ (s.act m (.work env)).maxLevel = s.maxLevel := by
  unfold Sys.act Sys.step
  dsimp only
  cases ht : s.thread with
  | ended => exact ⟨h, rfl⟩
  | dead => exact ⟨h, rfl⟩
  | running w =>
    cases hc : s.chan with
    | nil => exact ⟨h, rfl⟩
    | cons x r =>
      simp only [LogInv, ht, hc] at h
      obtain ⟨l, segs, h1, h2, h3⟩ := h
      have h1' : sent = (l ++ [x]) ++ r := by rw [h1]; simp
      rcases good_handle h3 m s.report x env with ⟨w', o', e, hx, segs', hg⟩ | ⟨o', e, rfl, segs', lost, hg⟩ |
        ⟨o', e, hx, segs', lost, hg⟩
      · dsimp only; rw [e]
        refine ⟨⟨l ++ [x], segs', h1', ?_, hg⟩, rfl⟩
        simp only [List.mem_append, List.mem_singleton, not_or]
        exact ⟨h2, fun he => hx he.symm⟩
      · dsimp only; rw [e]
        exact ⟨⟨l, r, segs', lost, h1, h2, hg⟩, rfl⟩
      · dsimp only; rw [e]
        exact ⟨⟨l, x, r, segs', lost, h1, h2, hx, hg⟩, rfl⟩

theorem inv_run (m : Mode) (acts : List Act) : ∀ (sent : List Msg) (s : Sys), LogInv sent s → s.maxLevel ≤ 5 →
    LogInv (sent ++ logSends s.maxLevel acts) (s.run m acts) ∧ (s.run m acts).maxLevel ≤ 5 := by
  induction acts with
  | nil => intro sent s h h5; exact ⟨by simpa [logSends, Sys.run] using h, h5⟩
  | cons a acts ih =>
    intro sent s h h5
    unfold Sys.run
    cases a with
    | log l e =>
      rw [act_log h5]
      unfold logSends
      split_ifs with hl
      · have := ih _ _ (inv_send h (.lazy e)) (by rw [send_level]; exact h5)
        rw [send_level] at this
        simpa using this
      · exact ih _ _ h h5
    | flushingLog l e =>
      rw [act_flushing h5]
      unfold logSends
      split_ifs with hl
      · have := ih _ _ (inv_send h (.flushing e)) (by rw [send_level]; exact h5)
        rw [send_level] at this
        simpa using this
      · exact ih _ _ h h5
    | control x =>
      rw [act_control]
      have := ih _ _ (inv_send h x) (by rw [send_level]; exact h5)
      rw [send_level] at this
      simpa [logSends] using this
    | setLevel l => exact ih sent { s with maxLevel := l.num } h (Level.num_le l)
    | setReport b => exact ih sent { s with report := b } h h5
    | work env =>
      obtain ⟨h1, h2⟩ := inv_work h m env
      have := ih _ _ h1 (by rw [h2]; exact h5)
      rw [h2] at this
      exact this

/-- Every state of an execution. -/
theorem inv_reached (m : Mode) (t : Nat) (acts : List Act) :
    LogInv (logSends 0 acts) ((Sys.init t).run m acts) ∧ ((Sys.init t).run m acts).maxLevel ≤ 5 := by
  have := inv_run m acts [] (Sys.init t) ⟨[], [], rfl, by simp, good_init t⟩ (Nat.zero_le _)
  simp only [List.nil_append] at this
  exact this

/-! ## What the statements need about `beforeClose` -/

theorem beforeClose_of_split {l r : List Msg} (h : Msg.close ∉ l) : beforeClose (l ++ .close :: r) = l := by
  unfold beforeClose
  rw [List.takeWhile_append_of_pos]
  · simp
  · intro a ha
    simp only [ne_eq, decide_not, Bool.not_eq_true', decide_eq_false_iff_not]
    rintro rfl
    exact h ha

theorem prefix_beforeClose {l r : List Msg} (h : Msg.close ∉ l) : l <+: beforeClose (l ++ r) := by
  unfold beforeClose
  rw [List.takeWhile_append_of_pos]
  · exact List.prefix_append _ _
  · intro a ha
    simp only [ne_eq, decide_not, Bool.not_eq_true', decide_eq_false_iff_not]
    rintro rfl
    exact h ha

theorem logTexts_prefix {a b : List Msg} (h : a <+: b) : logTexts a <+: logTexts b := by
  obtain ⟨c, rfl⟩ := h
  rw [logTexts_append]
  exact List.prefix_append _ _

/-! ## C117: at any moment -/

/-- C117: whatever the callers send and however far the worker has come - and whether it died on the way -, the bytes
in the files, in the order in which they were appended, are a prefix of the texts of the messages sent before the first
request to end, in the order of sending: nothing is lost in the middle, repeated or reordered. -/
theorem C117_prefix (m : Mode) (t : Nat) (acts : List Act) :
    logWritten ((Sys.init t).run m acts).out.disk <+: logTexts (beforeClose (logSends 0 acts)) := by
  obtain ⟨h, -⟩ := inv_reached m t acts
  unfold LogInv at h
  split at h
  · obtain ⟨l, segs, h1, h2, h3⟩ := h
    rw [h1]
    refine List.IsPrefix.trans ?_ (logTexts_prefix (prefix_beforeClose h2))
    rw [← h3.total, ← h3.stream, List.append_assoc]
    exact List.prefix_append _ _
  · obtain ⟨l, rest, segs, lost, h1, h2, h3, -⟩ := h
    rw [h1]
    refine List.IsPrefix.trans ?_ (logTexts_prefix (prefix_beforeClose h2))
    rw [← h3.total, h3.stream]
    exact List.prefix_append _ _
  · obtain ⟨l, x, rest, segs, lost, h1, h2, -, h3⟩ := h
    rw [h1]
    refine List.IsPrefix.trans ?_ (logTexts_prefix (prefix_beforeClose h2))
    rw [← h3.total, h3.stream]
    exact List.prefix_append _ _

/-- While the worker runs, what is not in the files yet is, in this order, in the writer, in the queue of the worker or
in the channel. -/
theorem C117_held (m : Mode) (t : Nat) (acts : List Act) (w : Worker)
    (hw : ((Sys.init t).run m acts).thread = .running w) :
    logTexts (logSends 0 acts) = logWritten ((Sys.init t).run m acts).out.disk ++ w.writer.elim [] (·.buf) ++
      w.queue.flatten ++ logTexts ((Sys.init t).run m acts).chan := by
  obtain ⟨h, -⟩ := inv_reached m t acts
  unfold LogInv at h
  rw [hw] at h
  obtain ⟨l, segs, h1, -, h3⟩ := h
  rw [h1, logTexts_append, ← h3.total, h3.stream]

/-! ## C118: the end -/

/-- C118: when the worker has ended in order, every message sent before the request to end is in the files, once and in
order, provided a file had been named; the single file named holds, after what it held before, exactly these texts, and
the other files are as before. -/
theorem C118_complete (m : Mode) (t : Nat) (acts : List Act) (hw : ((Sys.init t).run m acts).thread = .ended)
    (hp : logPaths (beforeClose (logSends 0 acts)) ≠ []) :
    logWritten ((Sys.init t).run m acts).out.disk = logTexts (beforeClose (logSends 0 acts)) := by
  obtain ⟨h, -⟩ := inv_reached m t acts
  unfold LogInv at h
  rw [hw] at h
  obtain ⟨l, rest, segs, lost, h1, h2, h3, h4⟩ := h
  rw [h1, beforeClose_of_split h2] at hp ⊢
  rw [← h3.total, h3.stream, h4 hp, List.append_nil]

theorem C118_one_file (m : Mode) (t : Nat) (acts : List Act) (old : String → Bytes) (f : String)
    (hw : ((Sys.init t).run m acts).thread = .ended)
    (hp : logPaths (beforeClose (logSends 0 acts)) = [f]) (p : String) :
    ((Sys.init t).run m acts).out.disk.content old p =
      if p = f then old f ++ logTexts (beforeClose (logSends 0 acts)) else old p := by
  obtain ⟨h, -⟩ := inv_reached m t acts
  unfold LogInv at h
  rw [hw] at h
  obtain ⟨l, rest, segs, lost, h1, h2, h3, h4⟩ := h
  rw [h1, beforeClose_of_split h2] at hp ⊢
  have hn := h3.names
  rw [hp] at hn
  obtain ⟨b, rfl⟩ : ∃ b, segs = [(f, b)] := by
    cases segs with
    | nil => simp at hn
    | cons x r =>
      cases r with
      | nil => refine ⟨x.2, ?_⟩; simp at hn; simp [← hn]
      | cons y r => simp at hn
  have ht := h3.total
  rw [h4 (by rw [hp]; simp), List.append_nil] at ht
  rw [h3.files p old, ← ht]
  by_cases hpf : p = f
  · subst hpf; simp [Disk.content, logWritten]
  · have : ¬ f = p := fun e => hpf e.symm
    simp [Disk.content, hpf, this]

/-- Without a file nothing is ever written, and what was logged is gone. -/
theorem C118_no_file (m : Mode) (t : Nat) (acts : List Act) (old : String → Bytes) (p : String)
    (hp : logPaths (logSends 0 acts) = []) : ((Sys.init t).run m acts).out.disk.content old p = old p := by
  have key : ∀ (l : List Msg) (r : List Msg) (segs : Disk), logSends 0 acts = l ++ r →
      segs.map (·.1) = logPaths l → segs = [] := by
    intro l r segs h1 hn
    rw [h1, logPaths_append] at hp
    rw [(List.append_eq_nil_iff.1 hp).1] at hn
    exact List.map_eq_nil_iff.1 hn
  obtain ⟨h, -⟩ := inv_reached m t acts
  unfold LogInv at h
  split at h
  · obtain ⟨l, segs, h1, h2, h3⟩ := h
    obtain rfl := key l _ segs h1 h3.names
    have hf := h3.files p old
    have hn := h3.names
    have hwr := h3.writer
    simp only [List.map_nil] at hn
    rw [← hn] at hwr
    rename_i w ht
    cases hww : w.writer with
    | none => rw [hww] at hf; simpa [held, Disk.content] using hf
    | some wr => rw [hww] at hwr; simp at hwr
  · obtain ⟨l, rest, segs, lost, h1, h2, h3, -⟩ := h
    obtain rfl := key l _ segs h1 h3.names
    rw [h3.files p old]; simp [Disk.content]
  · obtain ⟨l, x, rest, segs, lost, h1, h2, -, h3⟩ := h
    obtain rfl := key l _ segs h1 h3.names
    rw [h3.files p old]; simp [Disk.content]

/-- The outside behaves: files open, the thread is bound, and the clock does not go back. -/
def Calm : Nat → List Act → Prop
  | _, [] => True
  | t, .work env :: as => t ≤ env.now ∧ env.now ≤ env.later ∧ env.opens = true ∧ env.core = true ∧ Calm env.later as
  | t, _ :: as => Calm t as

/-- A message whose text can be computed, and which does not end the logger. -/
def Sound : Msg → Prop
  | .lazy e => e.isSome
  | .flushing e => e.isSome
  | .close => False
  | _ => True

theorem take_calm {m : Mode} {report : Bool} {w : Worker} {s : Bytes} {env : Env} {o : Out} (h1 : w.last ≤ env.now)
    (h2 : env.now ≤ env.later) : ∃ w' o', w.take m report s env o = .ok (w', o') ∧ w'.last ≤ env.later := by
  have hd : ∃ b, w.due m s env.now = .ok b := by
    unfold Worker.due
    split_ifs
    · exact ⟨_, rfl⟩
    · rw [subU_ok h1]; exact ⟨_, rfl⟩
  obtain ⟨b, hb⟩ := hd
  unfold Worker.take
  rw [hb]
  cases b with
  | false => exact ⟨_, _, rfl, by dsimp only; omega⟩
  | true =>
    cases hw : w.writer with
    | none => exact ⟨{ w with queue := w.queue ++ [s] }, o, by simp [bind, Except.bind, hw], by dsimp only; omega⟩
    | some wr =>
      refine ⟨_, _, by simp only [bind, Except.bind, if_true]; rfl, ?_⟩
      exact Nat.le_refl _

theorem handle_calm {m : Mode} {report : Bool} {w : Worker} {x : Msg} {env : Env} {o : Out} (hx : Sound x)
    (h1 : w.last ≤ env.now) (h2 : env.now ≤ env.later) (h3 : env.opens = true) (h4 : env.core = true) :
    ∃ w' o', w.handle m report x env o = (.goes w', o') ∧ w'.last ≤ env.later := by
  cases x with
  | lazy e =>
    obtain ⟨s, rfl⟩ := Option.isSome_iff_exists.1 hx
    obtain ⟨w', o', e, h⟩ := take_calm (m := m) (report := report) (s := s) (o := o) h1 h2
    exact ⟨w', o', by simp [Worker.handle, e], h⟩
  | static s =>
    obtain ⟨w', o', e, h⟩ := take_calm (m := m) (report := report) (s := s) (o := o) h1 h2
    exact ⟨w', o', by simp [Worker.handle, e], h⟩
  | flushing e =>
    obtain ⟨s, rfl⟩ := Option.isSome_iff_exists.1 hx
    refine ⟨_, _, rfl, ?_⟩
    dsimp only
    cases hw : w.writer with
    | none => dsimp only; omega
    | some wr => dsimp only; rw [drain_eq]
  | setFile p =>
    cases hw : w.writer with
    | none => exact ⟨_, _, by simp only [Worker.handle, hw, h3, if_true]; rfl, by dsimp only; omega⟩
    | some wr => exact ⟨_, _, by simp only [Worker.handle, hw, h3, if_true]; rfl, by dsimp only; omega⟩
  | setCore => exact ⟨w, o, by simp [Worker.handle, h4], by omega⟩
  | close => exact absurd hx id

/-- A running worker whose channel holds only sound messages. -/
def Runs (t : Nat) (s : Sys) : Prop := (∃ w, s.thread = .running w ∧ w.last ≤ t) ∧ ∀ x ∈ s.chan, Sound x

theorem runs_send {t : Nat} {s : Sys} (h : Runs t s) {x : Msg} (hx : Sound x) :
    Runs t (match s.send x with | .ok s => s | .error _ => s) := by
  obtain ⟨⟨w, hw, hl⟩, hc⟩ := h
  unfold Sys.send
  rw [hw]
  refine ⟨⟨w, rfl, hl⟩, ?_⟩
  intro y hy
  rcases List.mem_append.1 hy with hy | hy
  · exact hc y hy
  · rw [List.mem_singleton.1 hy]; exact hx

theorem runs_work {m : Mode} {t : Nat} {s : Sys} (h : Runs t s) {env : Env} (h1 : t ≤ env.now)
    (h2 : env.now ≤ env.later) (h3 : env.opens = true) (h4 : env.core = true) :
    Runs env.later (s.act m (.work env)) ∧ (s.act m (.work env)).chan = s.chan.tail := by
  obtain ⟨⟨w, hw, hl⟩, hc⟩ := h
  unfold Sys.act Sys.step
  dsimp only
  rw [hw]
  cases hch : s.chan with
  | nil => exact ⟨⟨⟨w, hw, by omega⟩, hc⟩, by simpa using hch⟩
  | cons x r =>
    obtain ⟨w', o', e, h⟩ := handle_calm (m := m) (report := s.report) (o := s.out) (hc x (by rw [hch]; simp))
      (by omega : w.last ≤ env.now) h2 h3 h4
    dsimp only
    rw [e]
    exact ⟨⟨⟨w', rfl, h⟩, fun y hy => hc y (by rw [hch]; exact List.mem_cons_of_mem _ hy)⟩, rfl⟩

theorem runs_run {m : Mode} (acts : List Act) : ∀ (t : Nat) (s : Sys), Runs t s → s.maxLevel ≤ 5 → Calm t acts →
    (∀ x ∈ logSends s.maxLevel acts, Sound x) →
    ∃ t', Runs t' (s.run m acts) ∧ (∀ more, Calm t (acts ++ more) → Calm t' more) ∧
      (s.run m acts).chan.length ≤ s.chan.length + (logSends s.maxLevel acts).length := by
  induction acts with
  | nil => intro t s h _ _ _; exact ⟨t, h, fun _ h => h, by simp [Sys.run]⟩
  | cons a acts ih =>
    have hsend (s : Sys) (x : Msg) : (match s.send x with | .ok s => s | .error _ => s).chan.length ≤
        s.chan.length + 1 := by
      unfold Sys.send
      cases s.thread <;> dsimp only <;> simp
    intro t s h h5 hcalm hs
    unfold Sys.run
    cases a with
    | log l e =>
      rw [act_log h5]
      unfold logSends at hs ⊢
      split_ifs at hs ⊢ with hl
      · have := ih t _ (runs_send h (hs (.lazy e) (by simp))) (by rw [send_level]; exact h5) hcalm
          (by rw [send_level]; exact fun x hx => hs x (List.mem_cons_of_mem _ hx))
        rw [send_level] at this
        obtain ⟨t', r1, r2, r3⟩ := this
        have := hsend s (.lazy e)
        exact ⟨t', r1, r2, by simp only [List.length_cons]; omega⟩
      · exact ih t s h h5 hcalm hs
    | flushingLog l e =>
      rw [act_flushing h5]
      unfold logSends at hs ⊢
      split_ifs at hs ⊢ with hl
      · have := ih t _ (runs_send h (hs (.flushing e) (by simp))) (by rw [send_level]; exact h5) hcalm
          (by rw [send_level]; exact fun x hx => hs x (List.mem_cons_of_mem _ hx))
        rw [send_level] at this
        obtain ⟨t', r1, r2, r3⟩ := this
        have := hsend s (.flushing e)
        exact ⟨t', r1, r2, by simp only [List.length_cons]; omega⟩
      · exact ih t s h h5 hcalm hs
    | control x =>
      rw [act_control]
      unfold logSends at hs ⊢
      have := ih t _ (runs_send h (hs x (by simp))) (by rw [send_level]; exact h5) hcalm
        (by rw [send_level]; exact fun x hx => hs x (List.mem_cons_of_mem _ hx))
      rw [send_level] at this
      obtain ⟨t', r1, r2, r3⟩ := this
      have := hsend s x
      exact ⟨t', r1, r2, by simp only [List.length_cons]; omega⟩
    | setLevel l => exact ih t { s with maxLevel := l.num } h (Level.num_le l) hcalm hs
    | setReport b => exact ih t { s with report := b } h h5 hcalm hs
    | work env =>
      obtain ⟨c1, c2, c3, c4, c5⟩ := hcalm
      obtain ⟨h1, h2⟩ := runs_work (m := m) h c1 c2 c3 c4
      have hlev : (s.act m (.work env)).maxLevel = s.maxLevel := by
        unfold Sys.act Sys.step
        dsimp only
        cases s.thread with
        | running w =>
          cases s.chan with
          | nil => rfl
          | cons x r =>
            dsimp only
            rcases w.handle m s.report x env s.out with ⟨⟨⟩, _⟩ <;> rfl
        | ended => rfl
        | dead => rfl
      have := ih env.later _ h1 (by rw [hlev]; exact h5) c5 (by rw [hlev]; exact hs)
      rw [hlev, h2] at this
      obtain ⟨t', r1, r2, r3⟩ := this
      refine ⟨t', r1, fun more hm => r2 more hm.2.2.2.2, ?_⟩
      simp only [List.length_tail] at r3
      unfold logSends
      omega

theorem works_end {m : Mode} (envs : List Env) : ∀ (t : Nat) (s : Sys) (l : List Msg),
    (∃ w, s.thread = .running w ∧ w.last ≤ t) → s.chan = l ++ [.close] → (∀ x ∈ l, Sound x) →
    Calm t (envs.map .work) → l.length < envs.length → (s.run m (envs.map .work)).thread = .ended := by
  have hend : ∀ (envs : List Env) (s : Sys), s.thread = .ended → (s.run m (envs.map .work)).thread = .ended := by
    intro envs
    induction envs with
    | nil => exact fun _ h => h
    | cons e envs ih =>
      intro s h
      simp only [List.map_cons, Sys.run]
      apply ih
      unfold Sys.act Sys.step
      simp [h]
  induction envs with
  | nil => intro t s l _ _ _ _ hlen; simp at hlen
  | cons e envs ih =>
    intro t s l hw hc hl hcalm hlen
    obtain ⟨c1, c2, c3, c4, c5⟩ := hcalm
    obtain ⟨w, hw, hlast⟩ := hw
    simp only [List.map_cons, Sys.run]
    cases l with
    | nil =>
      apply hend
      unfold Sys.act Sys.step
      dsimp only
      rw [hw, hc]
      dsimp only [List.nil_append]
      cases hww : w.writer with
      | none => simp [Worker.handle, hww]
      | some wr => simp [Worker.handle, hww]
    | cons x l =>
      obtain ⟨w', o', eq, h⟩ := handle_calm (m := m) (report := s.report) (o := s.out) (hl x (by simp))
        (by omega : w.last ≤ e.now) c2 c3 c4
      have hact : s.act m (.work e) = { s with thread := .running w', chan := l ++ [.close], out := o' } := by
        unfold Sys.act Sys.step
        dsimp only
        rw [hw, hc]
        dsimp only [List.cons_append]
        rw [eq]
      rw [hact]
      exact ih e.later _ l ⟨w', rfl, h⟩ rfl (fun y hy => hl y (List.mem_cons_of_mem _ hy)) c5 (by simpa using hlen)

theorem run_append {m : Mode} (a b : List Act) (s : Sys) : s.run m (a ++ b) = (s.run m a).run m b := by
  induction a generalizing s with
  | nil => rfl
  | cons x a ih => exact ih _

theorem logSends_works (lv : Nat) (envs : List Env) : logSends lv (envs.map .work) = [] := by
  induction envs with
  | nil => rfl
  | cons e envs ih => simpa [logSends] using ih

/-- After a history without a request to end, whose texts can all be computed, the request to end makes the worker write
everything and stop, in as many rounds as there were messages and one more. -/
theorem C118_finalize (m : Mode) (t : Nat) (acts : List Act) (envs : List Env)
    (hs : ∀ x ∈ logSends 0 acts, Sound x) (hcalm : Calm t (acts ++ .control .close :: envs.map .work))
    (hn : (logSends 0 acts).length < envs.length) :
    ((Sys.init t).run m (acts ++ .control .close :: envs.map .work)).thread = .ended ∧
    (logPaths (logSends 0 acts) ≠ [] →
      logWritten ((Sys.init t).run m (acts ++ .control .close :: envs.map .work)).out.disk =
        logTexts (logSends 0 acts)) := by
  have hcalm1 : Calm t acts := by
    clear hs hn
    revert t
    induction acts with
    | nil => intro t _; trivial
    | cons a acts ih =>
      intro t h
      cases a with
      | work env => exact ⟨h.1, h.2.1, h.2.2.1, h.2.2.2.1, ih _ h.2.2.2.2⟩
      | log l e => exact ih t h
      | flushingLog l e => exact ih t h
      | control x => exact ih t h
      | setLevel l => exact ih t h
      | setReport b => exact ih t h
  obtain ⟨t', r1, r2, r3⟩ := runs_run (m := m) acts t (Sys.init t) ⟨⟨_, rfl, Nat.le_refl t⟩, by simp [Sys.init]⟩
    (Nat.zero_le _) hcalm1 hs
  have hc2 := r2 _ hcalm
  have hthread : ((Sys.init t).run m (acts ++ .control .close :: envs.map .work)).thread = .ended := by
    rw [run_append]
    obtain ⟨⟨w, hw, hl⟩, hch⟩ := r1
    simp only [Sys.run, act_control]
    refine works_end envs t' _ ((Sys.init t).run m acts).chan ⟨w, ?_, hl⟩ ?_ hch hc2 ?_
    · unfold Sys.send; rw [hw]
    · unfold Sys.send; rw [hw]
    · have h0 : (Sys.init t).chan.length = 0 := rfl
      have h1 : (Sys.init t).maxLevel = 0 := rfl
      rw [h0, h1] at r3
      omega
  refine ⟨hthread, fun hp => ?_⟩
  have hsnd : ∀ lv, logSends lv (acts ++ .control .close :: envs.map .work) = logSends lv acts ++ [.close] := by
    clear hs hn hcalm hcalm1 r1 r2 r3 hc2 hthread hp
    induction acts with
    | nil => intro lv; simp [logSends, logSends_works]
    | cons a acts ih =>
      intro lv
      cases a with
      | log l e => simp only [List.cons_append, logSends]; split_ifs <;> simp [ih]
      | flushingLog l e => simp only [List.cons_append, logSends]; split_ifs <;> simp [ih]
      | control x => simp [logSends, ih]
      | setLevel l => simp [logSends, ih]
      | setReport b => simp [logSends, ih]
      | work env => simp [logSends, ih]
  have hnc : Msg.close ∉ logSends 0 acts := fun h => hs _ h
  have hb : beforeClose (logSends 0 (acts ++ .control .close :: envs.map .work)) = logSends 0 acts := by
    rw [hsnd]; exact beforeClose_of_split hnc
  have := C118_complete m t _ hthread (by rw [hb]; exact hp)
  rw [this, hb]

end Verif.Props
