import Verif.TE.Records
import Verif.Props.InstIds
/-!
# C152: the directory of instruments; C153: codes and balances
-/
set_option autoImplicit false
namespace Verif.Props
open Verif Verif.TE.Id Verif.TE.Records

/-- The specification: the last thing recorded for an instrument. -/
def lastRecorded (d : IdData) : List Op → Option Info
  | [] => none
  | .insert e i :: l => (lastRecorded d l).or (if e = d then some i else none)
  | .make _ :: l => lastRecorded d l

/-- What holds of the directory between calls: nothing is filed under an address no identifier has. -/
structure DirOk (m : Directory) : Prop where
  cache : CacheOk m.cache
  filed : ∀ a, m.cache.boxes.length ≤ a → m.map a = none

theorem get_known {m : Directory} {d : IdData} {a : Nat} (h : m.cache.table d = some a) : m.get d = m.map a := by
  unfold Directory.get Cache.intern; rw [h]

theorem get_unknown {m : Directory} (hm : DirOk m) {d : IdData} (h : m.cache.table d = none) : m.get d = none := by
  unfold Directory.get Cache.intern; rw [h]; exact hm.filed _ (Nat.le_refl _)

theorem table_lt {c : Cache} (h : CacheOk c) {d : IdData} {a : Nat} (e : c.table d = some a) : a < c.boxes.length := by
  have := h.sound d a e
  by_contra hn
  rw [List.getElem?_eq_none (by omega)] at this
  cases this

theorem dir_make {m : Directory} (hm : DirOk m) (e : IdData) : DirOk (m.make e) ∧ ∀ d, (m.make e).get d = m.get d := by
  obtain ⟨h1, h2, more, h3⟩ := cache_intern m.cache hm.cache e
  have hd : DirOk (m.make e) := ⟨h1, fun a ha => hm.filed a (by
    have ha' : (m.cache.intern e).2.boxes.length ≤ a := ha
    rw [h3, List.length_append] at ha'; omega)⟩
  refine ⟨hd, fun d => ?_⟩
  cases ht : m.cache.table d with
  | some a =>
    have : (m.make e).cache.table d = some a := h1.complete a d (by
      rw [h3, List.getElem?_append_left (table_lt hm.cache ht)]; exact hm.cache.sound d a ht)
    rw [get_known this, get_known ht]; rfl
  | none =>
    rw [get_unknown hm ht]
    cases ht' : (m.make e).cache.table d with
    | none => exact get_unknown hd ht'
    | some a =>
      rw [get_known ht']
      refine hm.filed a ?_
      by_contra hn
      have := h1.sound d a ht'
      rw [h3, List.getElem?_append_left (by omega)] at this
      rw [hm.cache.complete a d this] at ht
      cases ht

theorem intern_table (c : Cache) (d : IdData) : (c.intern d).2.table d = some (c.intern d).1 := by
  unfold Cache.intern
  cases h : c.table d with
  | some a => exact h
  | none => exact if_pos rfl

theorem dir_insert {m : Directory} (hm : DirOk m) (e : IdData) (i : Info) :
    DirOk (m.insert e i) ∧ ∀ d, (m.insert e i).get d = if e = d then some i else m.get d := by
  obtain ⟨g1, g2⟩ := dir_make hm e
  have ht := intern_table m.cache e
  have hlt := table_lt g1.cache ht
  have hd : DirOk (m.insert e i) := ⟨g1.cache, fun a ha => by
    have ha' : (m.make e).cache.boxes.length ≤ a := ha
    show (if a = (m.cache.intern e).1 then some i else m.map a) = none
    rw [if_neg (by omega)]
    exact g1.filed a ha'⟩
  refine ⟨hd, fun d => ?_⟩
  by_cases he : e = d
  · subst he
    rw [if_pos rfl, get_known (m := m.insert e i) ht]
    exact if_pos rfl
  · rw [if_neg he, ← g2 d]
    cases hd' : (m.make e).cache.table d with
    | none => rw [get_unknown g1 hd', get_unknown (m := m.insert e i) hd hd']
    | some a =>
      rw [get_known hd', get_known (m := m.insert e i) hd']
      refine if_neg fun ha => he ?_
      subst ha
      have x := g1.cache.sound _ _ hd'
      have y := g1.cache.sound _ _ ht
      rw [x] at y
      exact (Option.some.inj y).symm

/-- **C152** (the directory). After every history of recordings and of identifiers made elsewhere, looking an instrument up — through an
identifier made anew from its symbol and venue — gives what was last recorded for that symbol and venue, and nothing if nothing was. -/
theorem C152_directory (l : List Op) (d : IdData) : (Directory.new.run l).get d = lastRecorded d l := by
  have gen : ∀ m, DirOk m → (m.run l).get d = (lastRecorded d l).or (m.get d) := by
    induction l with
    | nil => intro m _; rfl
    | cons o l ih =>
      intro m hm
      cases o with
      | insert e i =>
        obtain ⟨g1, g2⟩ := dir_insert hm e i
        show ((m.insert e i).run l).get d = _
        rw [ih _ g1, g2]
        show _ = ((lastRecorded d l).or (if e = d then some i else none)).or _
        cases lastRecorded d l <;> by_cases he : e = d <;> simp [he]
      | make e =>
        obtain ⟨g1, g2⟩ := dir_make hm e
        show ((m.make e).run l).get d = _
        rw [ih _ g1, g2]; rfl
  have h0 : DirOk Directory.new := ⟨cache_init, fun _ _ => rfl⟩
  rw [gen _ h0]
  have : Directory.new.get d = none := rfl
  rw [this, Option.or_none]

/-- **C152** (cash). The identification number of a currency never fails to be made, has the currency's letters in front, and differs between
currencies. -/
theorem C152_currency (c d : TE.Records.Currency) : c.isinCode = .ok (c.text ++ List.replicate 9 48) ∧ (c.isinCode = d.isinCode ↔ c = d) := by
  have h : ∀ c : TE.Records.Currency, c.isinCode = .ok (c.text ++ List.replicate 9 48) := by intro c; cases c <;> rfl
  refine ⟨h c, ?_⟩
  rw [h, h]
  cases c <;> cases d <;> decide

/-- Concrete case: a share listed at two venues, recorded, corrected at one of them. -/
theorem C152_case : let s : Symbol := .isin [85, 83, 48, 51, 55, 56, 51, 51, 49, 48, 48, 53]
    let m := Directory.new.run [.make ⟨s, .krx⟩, .insert ⟨s, .kis⟩ ⟨1, .krw⟩, .insert ⟨s, .krx⟩ ⟨1, .krw⟩, .insert ⟨s, .kis⟩ ⟨1, .usd⟩]
    m.get ⟨s, .kis⟩ = some ⟨1, .usd⟩ ∧ m.get ⟨s, .krx⟩ = some ⟨1, .krw⟩ ∧ m.get ⟨s, .si⟩ = none := by decide

/-- **C153** (codes). Numbers and values correspond: a number is accepted exactly if it is the code of a value, and gives that value. -/
theorem C153_codes : (∀ v s, OrderSide.fromU8 v = .ok s ↔ s.code = v) ∧ (∀ v s, DataType.fromU8 v = .ok s ↔ s.code = v) ∧
    (∀ v s, TradeType.fromU8 v = .ok s ↔ s.code = v) ∧ (∀ s : OrderSide, s.opposite ≠ s ∧ s.opposite.opposite = s) := by
  refine ⟨fun v s => ?_, fun v s => ?_, fun v s => ?_, fun s => by cases s <;> decide⟩
  · unfold OrderSide.fromU8; cases s <;> simp only [OrderSide.code] <;> split_ifs <;> simp <;> omega
  · unfold DataType.fromU8; cases s <;> simp only [DataType.code] <;> split_ifs <;> simp <;> omega
  · unfold TradeType.fromU8; cases s <;> simp only [TradeType.code] <;> split_ifs <;> simp <;> omega

/-- The bound of a kind that a history of calls leaves: the last one given. -/
def lastLower : List Bound → Option Nat
  | [] => none
  | .noShort :: l => (lastLower l).or (some 0)
  | .lower q :: l => (lastLower l).or (some q)
  | .upper _ :: l => lastLower l

def lastUpper : List Bound → Option Nat
  | [] => none
  | .upper q :: l => (lastUpper l).or (some q)
  | _ :: l => lastUpper l

/-- **C153** (balances). After any sequence of bounds set on a new balance, each bound is the last one given, no short selling being a lower
bound of zero; position, side, pending and liquidatable quantity are those of the start. -/
theorem C153_balance (s : OrderSide) (q : Nat) (l : List Bound) : l.foldl Balance.bound (Balance.initialize s q) =
    { side := s, outstanding := q, pending := 0, liquidatable := q, upper := lastUpper l, lower := lastLower l } := by
  have gen : ∀ b : Balance, l.foldl Balance.bound b = { b with upper := (lastUpper l).or b.upper, lower := (lastLower l).or b.lower } := by
    induction l with
    | nil => intro b; rfl
    | cons x l ih =>
      intro b
      rw [List.foldl_cons, ih]
      cases x <;> cases hu : lastUpper l <;> cases hl : lastLower l <;> simp [Balance.bound, lastUpper, lastLower, hu, hl]
  rw [gen]
  simp [Balance.initialize]

/-- **C153** (empty). Whatever the public fields of a balance were set to, it is empty exactly if its outstanding quantity is zero. -/
theorem C153_empty_any (b : Balance) : b.isEmpty = true ↔ b.outstanding = 0 := beq_iff_eq

/-- **C153** (empty). A balance, whatever bounds are set on it, is empty exactly if it was opened with nothing outstanding. -/
theorem C153_empty (s : OrderSide) (q : Nat) (l : List Bound) : (l.foldl Balance.bound (Balance.initialize s q)).isEmpty = true ↔ q = 0 := by
  rw [C153_balance]; exact beq_iff_eq

theorem C153_case : [Bound.noShort, .upper 5, .lower 3, .upper 9].foldl Balance.bound (Balance.initialize .bid 7) =
    { side := .bid, outstanding := 7, pending := 0, liquidatable := 7, upper := some 9, lower := some 3 } := by decide

end Verif.Props
