import Verif.TE.Clock
import Verif.TE.NumericLemmas
import Verif.Props.Parsing
import Mathlib.Tactic.Ring
import Mathlib.Tactic.NormNum
/-!
# C32: exchange time stamps
-/
set_option autoImplicit false
namespace Verif.Props
open Verif Verif.TE.Num Verif.TE.Clock

/-- Specification: a day in nanoseconds. -/
def dayNanos : Nat := 24 * 3600 * 1000000000

/-- Specification: fifteen hours in nanoseconds. -/
def fifteenHours : Nat := 15 * 3600 * 1000000000

theorem DAY_eq : DAY = dayNanos := by unfold DAY dayNanos; norm_num
theorem FIFTEEN_eq : FIFTEEN = fifteenHours := by unfold FIFTEEN fifteenHours; norm_num

/-- Specification: a clock reading `HH:MM:SS.uuuuuu`. -/
structure Reading where
  hh : Nat
  mm : Nat
  ss : Nat
  us : Nat

/-- A reading of a 24-hour clock. -/
def Reading.Valid (r : Reading) : Prop := r.hh < 24 ∧ r.mm < 60 ∧ r.ss < 60 ∧ r.us < 1000000

/-- Nanoseconds since midnight. -/
def Reading.nanos (r : Reading) : Nat := ((r.hh * 60 + r.mm) * 60 + r.ss) * 1000000000 + r.us * 1000

/-- The twelve ASCII digits `HHMMSSuuuuuu`. -/
def Reading.text (r : Reading) : List UInt8 :=
  Props.text 2 r.hh ++ Props.text 2 r.mm ++ Props.text 2 r.ss ++ Props.text 6 r.us

theorem Reading.nanos_lt (r : Reading) (h : r.Valid) : r.nanos < dayNanos := by
  obtain ⟨h1, h2, h3, h4⟩ := h
  unfold Reading.nanos dayNanos
  omega

theorem dayLoop_done (m : Mode) (prev stamp n : Nat) (g : Gen) (cur : Nat) (h : fifteenHours + cur < U64)
    (hp : prev < fifteenHours + cur) : dayLoop m prev stamp (n + 1) g cur = .ok (g, cur) := by
  unfold dayLoop
  rw [FIFTEEN_eq]
  refine bind_of_ok (addU_ok h) ?_
  rw [if_neg (by omega)]

theorem dayLoop_next (m : Mode) (prev stamp n : Nat) (g : Gen) (cur : Nat)
    (hd : g.date + dayNanos < U64) (hc : cur + dayNanos < U64) (h : fifteenHours + cur < U64)
    (hp : fifteenHours + cur ≤ prev) : dayLoop m prev stamp (n + 1) g cur
      = dayLoop m prev stamp n { g with date := g.date + dayNanos, update := stamp } (cur + dayNanos) := by
  rw [dayLoop, FIFTEEN_eq, DAY_eq]
  refine bind_of_ok (addU_ok h) ?_
  rw [if_pos hp]
  refine bind_of_ok (a := { g with date := g.date + dayNanos, update := stamp }) ?_ (bind_of_ok (addU_ok hc) rfl)
  unfold Gen.increment
  rw [DAY_eq]
  exact bind_of_ok (addU_ok hd) rfl

/-- The clock part of the parser, for a field that holds a reading. -/
theorem parseStamp_loop (m : Mode) (offset : Nat) (v : Slice) (stamp : Nat) (g : Gen) (r : Reading)
    (hr : r.Valid) (hv : 12 ≤ v.len) (ht : Holds v r.text) (ho : r.nanos + offset + g.date < U64) :
    parseStamp m offset v stamp g
      = (dayLoop m g.prev stamp U64 g (r.nanos + offset + g.date) >>= fun p => .ok (p.2, { p.1 with prev := p.2 })) := by
  obtain ⟨h1, h2, h3, h4⟩ := hr
  unfold Reading.text at ht
  rw [holds_append] at ht
  obtain ⟨ha, hb⟩ := ht
  have hl : (Props.text 2 r.hh ++ Props.text 2 r.mm ++ Props.text 2 r.ss).length = 6 := by
    simp [text_length]
  rw [hl] at hb
  unfold parseStamp
  refine bind_of_ok (sub_ok v 6 12 (by omega) hv) ?_
  refine bind_of_ok (a := r.us) (C25_parse_under8 m _ 6 r.us (by omega) (by omega) (by norm_num; omega) hb) ?_
  refine bind_of_ok (a := r.us * 1000) (mulW_ok (by norm_num; omega)) ?_
  refine bind_of_ok (sub_ok v 0 6 (by omega) (by omega)) ?_
  refine bind_of_ok (C29_hhmmss m _ r.hh r.mm r.ss (by omega) (by omega) (by omega) ?_) ?_
  · intro i hi
    have := ha i hi
    simpa using this
  have e : r.us * 1000 + (r.hh * 3600 + r.mm * 60 + r.ss) * 1000000000 = r.nanos := by
    unfold Reading.nanos; ring
  refine bind_of_ok (a := r.nanos) (by rw [← e]; exact addU_ok (by rw [e]; omega)) ?_
  refine bind_of_ok (a := r.nanos + offset) (addU_ok (by omega)) ?_
  refine bind_of_ok (a := r.nanos + offset + g.date) (addU_ok (by omega)) ?_
  rfl

theorem U64_succ : U64 = (U64 - 2) + 1 + 1 := by unfold U64; norm_num

/-- C32 (first stamp). A fresh generator for the day starting at `g.date` returns date + time of day + offset. -/
theorem C32_first (m : Mode) (offset : Nat) (v : Slice) (stamp : Nat) (g : Gen) (r : Reading)
    (hr : r.Valid) (hv : 12 ≤ v.len) (ht : Holds v r.text) (hg : g.prev = 0)
    (ho : r.nanos + offset + g.date + fifteenHours < U64) :
    parseStamp m offset v stamp g
      = .ok (g.date + r.nanos + offset, { g with prev := g.date + r.nanos + offset }) := by
  rw [parseStamp_loop m offset v stamp g r hr hv ht (by omega), U64_succ, hg,
    dayLoop_done m 0 stamp _ g _ (by omega) (by unfold fifteenHours; omega)]
  simp only [Res.bind_ok]
  have : r.nanos + offset + g.date = g.date + r.nanos + offset := by omega
  rw [this]

/-- C32 (every later stamp), exactly: after a stamp with time of day `t` on the generator's day, a reading `r`
is placed on the same day if it is less than fifteen hours earlier in the day than `t`, and on the next day
otherwise. The generator's date moves accordingly. -/
theorem C32_step (m : Mode) (offset : Nat) (v : Slice) (stamp : Nat) (g : Gen) (r : Reading) (t : Nat)
    (hr : r.Valid) (hv : 12 ≤ v.len) (ht : Holds v r.text) (hg : g.prev = g.date + t + offset) (htd : t < dayNanos)
    (ho : r.nanos + offset + g.date + dayNanos + fifteenHours < U64) :
    (t < r.nanos + fifteenHours → parseStamp m offset v stamp g
        = .ok (g.date + r.nanos + offset, { g with prev := g.date + r.nanos + offset })) ∧
    (r.nanos + fifteenHours ≤ t → parseStamp m offset v stamp g
        = .ok (g.date + dayNanos + r.nanos + offset,
            { date := g.date + dayNanos, prev := g.date + dayNanos + r.nanos + offset, update := stamp })) := by
  refine ⟨fun h => ?_, fun h => ?_⟩
  · rw [parseStamp_loop m offset v stamp g r hr hv ht (by omega), U64_succ, hg,
      dayLoop_done m _ stamp _ g _ (by omega) (by omega)]
    simp only [Res.bind_ok]
    have : r.nanos + offset + g.date = g.date + r.nanos + offset := by omega
    rw [this]
  · rw [parseStamp_loop m offset v stamp g r hr hv ht (by omega), U64_succ, hg,
      dayLoop_next m _ stamp _ g _ (by omega) (by omega) (by omega) (by omega),
      dayLoop_done m _ stamp _ _ _ (by omega) (by omega)]
    simp only [Res.bind_ok]
    have : r.nanos + offset + g.date + dayNanos = g.date + dayNanos + r.nanos + offset := by omega
    rw [this]

/-- Specification: an event happens on day `day` (counted from 1970-01-01) when the exchange clock shows `r`;
`v` is the field of the message. -/
structure Event where
  day : Nat
  r : Reading
  v : Slice
  sys : Nat

/-- The instant of the event in nanoseconds since 1970-01-01 by the exchange's clock. -/
def Event.instant (e : Event) : Nat := e.day * dayNanos + e.r.nanos

/-- The field is twelve bytes or more and starts with the reading; the instant is far from the end of `u64`
(year 2554). -/
def Event.Ok (offset : Nat) (e : Event) : Prop :=
  e.r.Valid ∧ 12 ≤ e.v.len ∧ Holds e.v e.r.text ∧ e.instant + offset + dayNanos + dayNanos + fifteenHours < U64

/-- Two consecutive events are either on the same day, the second at most fifteen hours before the first, or on
consecutive days, the second at least fifteen hours earlier in its day than the first. -/
def Follows (a b : Event) : Prop :=
  (b.day = a.day ∧ a.r.nanos < b.r.nanos + fifteenHours) ∨ (b.day = a.day + 1 ∧ b.r.nanos + fifteenHours ≤ a.r.nanos)

/-- Every element of the stream follows its predecessor. -/
def Chain : Event → List Event → Prop
  | _, [] => True
  | a, b :: rest => Follows a b ∧ Chain b rest

theorem chain_stream (m : Mode) (offset : Nat) (l : List Event) (a : Event) (g : Gen)
    (ha : a.r.Valid) (hd : g.date = a.day * dayNanos) (hp : g.prev = g.date + a.r.nanos + offset)
    (hok : ∀ e ∈ l, e.Ok offset) (hU : a.instant + offset + dayNanos + dayNanos + fifteenHours < U64) (hc : Chain a l) :
    ∃ g', parseStream m offset (l.map fun e => (e.v, e.sys)) g
      = .ok (l.map fun e => e.instant + offset, g') := by
  induction l generalizing a g with
  | nil => exact ⟨g, rfl⟩
  | cons b rest ih =>
    obtain ⟨hb1, hb2, hb3, hb4⟩ := hok b (by simp)
    have hn := b.r.nanos_lt hb1
    have hna := a.r.nanos_lt ha
    unfold Event.instant at hU hb4
    have hst := C32_step m offset b.v b.sys g b.r a.r.nanos hb1 hb2 hb3 hp hna (by omega)
    rcases hc.1 with ⟨h1, h2⟩ | ⟨h1, h2⟩
    · have hs := hst.1 h2
      have e1 : g.date + b.r.nanos + offset = b.instant + offset := by
        unfold Event.instant; rw [h1, hd]
      obtain ⟨g', hg'⟩ := ih b { g with prev := g.date + b.r.nanos + offset } hb1
        (by rw [h1]; exact hd) rfl (fun e he => hok e (List.mem_cons_of_mem _ he)) (by unfold Event.instant; omega) hc.2
      refine ⟨g', ?_⟩
      show parseStream m offset ((b.v, b.sys) :: rest.map fun e => (e.v, e.sys)) g = _
      unfold parseStream
      refine bind_of_ok hs (bind_of_ok hg' ?_)
      simp only [e1, List.map_cons]
    · have hs := hst.2 h2
      have e2 : g.date + dayNanos = b.day * dayNanos := by rw [h1, hd, Nat.add_mul, Nat.one_mul]
      have e1 : g.date + dayNanos + b.r.nanos + offset = b.instant + offset := by
        unfold Event.instant; rw [e2]
      obtain ⟨g', hg'⟩ := ih b
        { date := g.date + dayNanos, prev := g.date + dayNanos + b.r.nanos + offset, update := b.sys } hb1
        e2 rfl (fun e he => hok e (List.mem_cons_of_mem _ he)) (by unfold Event.instant; omega) hc.2
      refine ⟨g', ?_⟩
      show parseStream m offset ((b.v, b.sys) :: rest.map fun e => (e.v, e.sys)) g = _
      unfold parseStream
      refine bind_of_ok hs (bind_of_ok hg' ?_)
      simp only [e1, List.map_cons]

/-- C32. For every stream of events whose first one is on the generator's day and in which consecutive events
follow each other (same day and not fifteen hours back, or next day and at least fifteen hours earlier in the
day), every returned stamp is the instant of its event plus the configured offset. -/
theorem C32_stream (m : Mode) (offset : Nat) (a : Event) (l : List Event) (g : Gen)
    (hg : g.date = a.day * dayNanos) (hp : g.prev = 0) (hok : ∀ e ∈ a :: l, e.Ok offset) (hc : Chain a l) :
    ∃ g', parseStream m offset ((a :: l).map fun e => (e.v, e.sys)) g
      = .ok ((a :: l).map fun e => e.instant + offset, g') := by
  obtain ⟨h1, h2, h3, h4⟩ := hok a (by simp)
  have hf := C32_first m offset a.v a.sys g a.r h1 h2 h3 hp (by unfold Event.instant at h4; omega)
  have e1 : g.date + a.r.nanos + offset = a.instant + offset := by unfold Event.instant; rw [hg]
  obtain ⟨g', hg'⟩ := chain_stream m offset l a { g with prev := g.date + a.r.nanos + offset } h1 hg rfl
    (fun e he => hok e (List.mem_cons_of_mem _ he)) h4 hc
  refine ⟨g', ?_⟩
  show parseStream m offset ((a.v, a.sys) :: l.map fun e => (e.v, e.sys)) g = _
  unfold parseStream
  refine bind_of_ok hf (bind_of_ok hg' ?_)
  simp only [e1, List.map_cons]

/-- Instants in the order of the stream never decrease. -/
def Ordered (l : List Event) : Prop := l.Pairwise fun a b => a.instant ≤ b.instant

/-- C32 (order). If moreover the events are in the order of time, the returned stamps never go backwards. -/
theorem C32_monotone (m : Mode) (offset : Nat) (a : Event) (l : List Event) (g : Gen)
    (hg : g.date = a.day * dayNanos) (hp : g.prev = 0) (hok : ∀ e ∈ a :: l, e.Ok offset) (hc : Chain a l)
    (ho : Ordered (a :: l)) :
    ∃ xs g', parseStream m offset ((a :: l).map fun e => (e.v, e.sys)) g = .ok (xs, g') ∧
      xs.length = (a :: l).length ∧ xs.Pairwise (· ≤ ·) := by
  obtain ⟨g', h⟩ := C32_stream m offset a l g hg hp hok hc
  refine ⟨_, g', h, by simp, ?_⟩
  rw [List.pairwise_map]
  exact List.Pairwise.imp (fun h => Nat.add_le_add_right h _) ho

/-- C32 is sharp: when two consecutive events of a correct stream do not follow each other in the sense above,
the second stamp is not the instant of its event. -/
theorem C32_sharp (m : Mode) (offset : Nat) (a b : Event) (g : Gen)
    (hg : g.date = a.day * dayNanos) (hp : g.prev = 0) (ha : a.Ok offset) (hb : b.Ok offset) (hc : ¬ Follows a b) :
    ∃ y g', parseStream m offset [(a.v, a.sys), (b.v, b.sys)] g = .ok ([a.instant + offset, y], g') ∧
      y ≠ b.instant + offset := by
  obtain ⟨h1, h2, h3, h4⟩ := ha
  obtain ⟨k1, k2, k3, k4⟩ := hb
  have hna := a.r.nanos_lt h1
  have hnb := b.r.nanos_lt k1
  have hf := C32_first m offset a.v a.sys g a.r h1 h2 h3 hp (by unfold Event.instant at h4; omega)
  have e1 : g.date + a.r.nanos + offset = a.instant + offset := by unfold Event.instant; rw [hg]
  have hst := C32_step m offset b.v b.sys { g with prev := g.date + a.r.nanos + offset } b.r a.r.nanos k1 k2 k3 rfl
    hna (by unfold Event.instant at h4; simp only; omega)
  have key : ∀ d : Nat, b.day ≠ d → d * dayNanos + b.r.nanos + offset ≠ b.instant + offset := by
    intro d hd he
    unfold Event.instant at he
    have : d * dayNanos = b.day * dayNanos := by omega
    exact hd (Nat.eq_of_mul_eq_mul_right (by unfold dayNanos; omega) this).symm
  by_cases hlt : a.r.nanos < b.r.nanos + fifteenHours
  · refine ⟨g.date + b.r.nanos + offset, { g with prev := g.date + b.r.nanos + offset }, ?_, ?_⟩
    · unfold parseStream
      refine bind_of_ok hf ?_
      unfold parseStream
      refine bind_of_ok (bind_of_ok (hst.1 hlt) (bind_of_ok rfl rfl)) ?_
      simp only [e1]
    · rw [hg]
      exact key _ (fun h => hc (Or.inl ⟨h, hlt⟩))
  · refine ⟨g.date + dayNanos + b.r.nanos + offset,
      { date := g.date + dayNanos, prev := g.date + dayNanos + b.r.nanos + offset, update := b.sys }, ?_, ?_⟩
    · unfold parseStream
      refine bind_of_ok hf ?_
      unfold parseStream
      refine bind_of_ok (bind_of_ok (hst.2 (by omega)) (bind_of_ok rfl rfl)) ?_
      simp only [e1]
    · have : g.date + dayNanos = (a.day + 1) * dayNanos := by rw [hg, Nat.add_mul, Nat.one_mul]
      rw [this]
      exact key _ (fun h => hc (Or.inr ⟨h, by omega⟩))

/-- An event on day `d` at `hh:mm` with its twelve-byte field. -/
def eventAt (d hh mm : Nat) : Event :=
  { day := d, r := ⟨hh, mm, 0, 0⟩, v := ofList (Reading.text ⟨hh, mm, 0, 0⟩), sys := 0 }

theorem eventAt_ok (d hh mm : Nat) (h : hh < 24) (hm : mm < 60) (hd : d < 100000) : (eventAt d hh mm).Ok krxOffset := by
  refine ⟨⟨h, hm, Nat.zero_lt_succ _, Nat.zero_lt_succ _⟩, ?_, holds_ofList _, ?_⟩
  · simp [eventAt, ofList, Reading.text, text_length]
  · simp only [eventAt, Event.instant, Reading.nanos, krxOffset, HOUR, dayNanos, fifteenHours, U64]
    norm_num
    omega

/-- A stream over midnight that the theorems cover: 23:59 and then 00:01 on the next day, then 15:30. -/
example : ∃ xs g', parseStream .checked krxOffset
    ([eventAt 19719 23 59, eventAt 19720 0 1, eventAt 19720 15 30].map fun e => (e.v, e.sys))
    (Gen.fromDate 19719 0) = .ok (xs, g') ∧ xs.length = 3 ∧ xs.Pairwise (· ≤ ·) := by
  refine C32_monotone .checked krxOffset (eventAt 19719 23 59) [eventAt 19720 0 1, eventAt 19720 15 30] _ rfl rfl ?_ ?_ ?_
  · simp only [List.mem_cons, List.not_mem_nil, or_false, forall_eq_or_imp, forall_eq]
    exact ⟨eventAt_ok _ _ _ (by omega) (by omega) (by omega), eventAt_ok _ _ _ (by omega) (by omega) (by omega),
      eventAt_ok _ _ _ (by omega) (by omega) (by omega)⟩
  · refine ⟨Or.inr ?_, Or.inl ?_, trivial⟩ <;> simp [eventAt, Reading.nanos, fifteenHours]
  · simp [Ordered, eventAt, Event.instant, Reading.nanos, dayNanos]

/-- A stream the fifteen-hour rule misses: a session that closes at 15:45 and opens at 08:45 the next day. The
second stamp falls back seven hours, into the first day. -/
theorem fault_day_session : ∃ y g', parseStream .checked krxOffset
    [((eventAt 19719 15 45).v, 0), ((eventAt 19720 8 45).v, 0)] (Gen.fromDate 19719 0)
      = .ok ([(eventAt 19719 15 45).instant + krxOffset, y], g') ∧
      y = (eventAt 19719 8 45).instant + krxOffset ∧ y < (eventAt 19719 15 45).instant + krxOffset := by
  have ha := eventAt_ok 19719 15 45 (by omega) (by omega) (by omega)
  have hb := eventAt_ok 19719 8 45 (by omega) (by omega) (by omega)
  obtain ⟨g', h⟩ := C32_stream .checked krxOffset (eventAt 19719 15 45) [eventAt 19719 8 45] (Gen.fromDate 19719 0)
    rfl rfl (by
      simp only [List.mem_cons, List.not_mem_nil, or_false, forall_eq_or_imp, forall_eq]
      exact ⟨ha, hb⟩) ⟨Or.inl (by simp [eventAt, Reading.nanos, fifteenHours]), trivial⟩
  exact ⟨_, g', h, rfl, by simp [eventAt, Event.instant, Reading.nanos, dayNanos]⟩

/-- Fields shorter than twelve bytes panic, whatever they contain and in both build modes. -/
theorem C32_short_field (m : Mode) (offset : Nat) (v : Slice) (stamp : Nat) (g : Gen) (h : v.len < 12) :
    parseStamp m offset v stamp g = .error .index := by
  unfold parseStamp
  exact bind_err (sub_err v 6 12 (by omega))

/-- `from_unixnano` and `set_timestamp` keep exactly the day of the stamp: midnight of that day. -/
theorem C32_generator_day (nano now : Nat) (g : Gen) :
    (Gen.fromUnixNano nano now).date ≤ nano ∧ nano < (Gen.fromUnixNano nano now).date + dayNanos ∧
    dayNanos ∣ (Gen.fromUnixNano nano now).date ∧ (Gen.fromUnixNano nano now).prev = 0 ∧
    (g.setTimestamp nano).date = (Gen.fromUnixNano nano now).date ∧ (g.setTimestamp nano).prev = g.prev := by
  refine ⟨Nat.div_mul_le_self _ _, ?_, Dvd.intro_left _ rfl, rfl, rfl, rfl⟩
  have := Nat.lt_div_mul_add (a := nano) (b := dayNanos) (by unfold dayNanos; omega)
  exact this

/-- Differences of stamps: quotient and remainder recombine to the exact difference, for every scale, and the
remainder is below the scale. -/
theorem C32_diff (m : Mode) (scale a b : Nat) (hs : 0 < scale) (hab : b ≤ a) (ha : a < U64) :
    ∃ q r, diffScale m scale a b = .ok (q, r) ∧ q * scale + r = a - b ∧ r < scale := by
  have hq : (a - b) / scale * scale ≤ a - b := Nat.div_mul_le_self _ _
  refine ⟨(a - b) / scale, (a - b) - (a - b) / scale * scale, ?_, by omega, ?_⟩
  · unfold diffScale
    refine bind_of_ok (subU_ok hab) ?_
    refine bind_of_ok (mulW_ok ?_) (bind_of_ok (subU_ok hq) rfl)
    have : U64 = 2 ^ 64 := rfl
    omega
  · have := Nat.lt_div_mul_add (a := a - b) hs
    omega

/-- With the arguments in the wrong order a debug build panics and a release build returns a huge number: the
two's complement of the difference. -/
theorem C32_diff_negative (a b : Nat) (h : a < b) (hb : b < U64) :
    diffNanos .checked a b = .error .overflow ∧ diffNanos .wrapping a b = .ok (U64 - (b - a)) := by
  unfold diffNanos subU
  rw [if_neg (by omega)]
  refine ⟨rfl, ?_⟩
  rw [if_neg (by omega)]
  refine congrArg Except.ok ?_
  rw [Nat.mod_eq_of_lt (by omega)]
  omega

end Verif.Props
