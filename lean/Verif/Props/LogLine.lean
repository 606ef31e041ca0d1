import Verif.TE.LogLine
import Verif.Props.Timer
import Verif.Props.Logger
import Mathlib.Tactic.SplitIfs
/-!
# C180: the lines of the log
-/
set_option autoImplicit false
namespace Verif.Props
open Verif Verif.TE Verif.TE.Log Verif.Civil

/-! ## Specification -/

/-- The lines of a text, as `BufRead::lines` reads them: a line ends with a line break or with the text -/
def linesOf : Bytes → List Bytes
  | [] => []
  | b :: s => if b = 10 then [] :: linesOf s else match linesOf s with
    | [] => [[b]]
    | l :: r => (b :: l) :: r

/-- The bytes numbers are printed with: digits, `+ - . E e` -/
def NumByte (b : UInt8) : Prop := (48 ≤ b ∧ b ≤ 57) ∨ b = 43 ∨ b = 45 ∨ b = 46 ∨ b = 69 ∨ b = 101

instance (b : UInt8) : Decidable (NumByte b) := by unfold NumByte; infer_instance

mutual
/-- Every number in a value has a text, of the bytes of numbers -/
def Printed : Json → Prop
  | .num t => t ≠ [] ∧ ∀ b ∈ t, NumByte b
  | .arr l => PrintedItems l
  | .obj l => PrintedFields l
  | _ => True
def PrintedItems : Items → Prop
  | .nil => True
  | .cons v l => Printed v ∧ PrintedItems l
def PrintedFields : Fields → Prop
  | .nil => True
  | .cons _ v l => Printed v ∧ PrintedFields l
end

/-- The values of a record are -/
def RecordPrinted (r : Record) : Prop := ∀ p ∈ r.data, Printed p.2

/-- The object of a record's values, as a reader sees it -/
def recordValues (r : Record) : Fields := Fields.of r.data .nil

/-! ## Strings -/

/-- Reading back what `escape` writes -/
def unescape : Bytes → UInt8
  | [b] => b
  | [_, c] => if c = 98 then 8 else if c = 116 then 9 else if c = 110 then 10 else if c = 102 then 12 else if c = 114 then 13 else c
  | [_, _, _, _, h, l] => UInt8.ofNat (16 * (h.toNat - 48) + (if l < 58 then l.toNat - 48 else l.toNat - 87))
  | _ => 0

theorem all_bytes {p : UInt8 → Prop} (h : ∀ i : Fin 256, p (UInt8.ofNat i.val)) (b : UInt8) : p b := by
  have := h ⟨b.toNat, b.toNat_lt⟩
  simpa using this

theorem unescape_escape (b : UInt8) : unescape (escape b) = b :=
  all_bytes (p := fun b => unescape (escape b) = b) (by decide +kernel) b

theorem escape_ge (b : UInt8) : ∀ c ∈ escape b, (32 : UInt8) ≤ c :=
  all_bytes (p := fun b => ∀ c ∈ escape b, (32 : UInt8) ≤ c) (by decide +kernel) b

theorem escape_shape (b : UInt8) : (escape b = [b] ∧ b ≠ 92 ∧ b ≠ 34) ∨ (∃ c, escape b = [92, c] ∧ c ≠ 117) ∨ ∃ h l, escape b = [92, 117, 48, 48, h, l] := by
  unfold escape
  split_ifs <;> first
    | (right; left; exact ⟨_, rfl, by decide⟩)
    | (right; right; exact ⟨_, _, rfl⟩)
    | (left; exact ⟨rfl, by assumption, by assumption⟩)

theorem escape_inj (b c : UInt8) (x y : Bytes) (h : escape b ++ x = escape c ++ y) : b = c ∧ x = y := by
  have hl : (escape b).length = (escape c).length := by
    rcases escape_shape b with ⟨hb, n, -⟩ | ⟨p, hb, n⟩ | ⟨p, q, hb⟩ <;> rcases escape_shape c with ⟨hc, n', -⟩ | ⟨p', hc, n'⟩ | ⟨p', q', hc⟩ <;>
      rw [hb, hc] at h ⊢ <;> simp at h ⊢
    all_goals first
      | exact n h.1
      | exact n' h.1.symm
      | exact n h.1.symm
      | exact n' h.1
  obtain ⟨h1, h2⟩ := List.append_inj h hl
  refine ⟨?_, h2⟩
  rw [← unescape_escape b, h1, unescape_escape]

theorem escape_quote (b : UInt8) (x y : Bytes) : escape b ++ x ≠ 34 :: y := by
  rcases escape_shape b with ⟨hb, -, n⟩ | ⟨p, hb, -⟩ | ⟨p, q, hb⟩ <;> rw [hb] <;> simp
  exact fun h => absurd h n

theorem contents_inj (s : Bytes) : ∀ (s' r r' : Bytes), s.flatMap escape ++ 34 :: r = s'.flatMap escape ++ 34 :: r' → s = s' ∧ r = r' := by
  induction s with
  | nil =>
    intro s' r r' h
    cases s' with
    | nil => simpa using h
    | cons b s' =>
      rw [List.flatMap_cons, List.append_assoc] at h
      exact absurd h.symm (escape_quote _ _ _)
  | cons b s ih =>
    intro s' r r' h
    cases s' with
    | nil =>
      rw [List.flatMap_cons, List.append_assoc] at h
      exact absurd h (escape_quote _ _ _)
    | cons c s' =>
      rw [List.flatMap_cons, List.flatMap_cons, List.append_assoc, List.append_assoc] at h
      obtain ⟨e, h2⟩ := escape_inj _ _ _ _ h
      obtain ⟨e3, h3⟩ := ih _ _ _ h2
      exact ⟨by rw [e, e3], h3⟩

theorem quoted_inj (s s' r r' : Bytes) (h : quoted s ++ r = quoted s' ++ r') : s = s' ∧ r = r' := by
  unfold quoted at h
  simp only [List.cons_append, List.append_assoc, List.cons.injEq, true_and, List.nil_append] at h
  exact contents_inj _ _ _ _ h

theorem quoted_ge (s : Bytes) : ∀ c ∈ quoted s, (32 : UInt8) ≤ c := by
  unfold quoted
  intro c hc
  simp only [List.mem_cons, List.mem_append, List.mem_flatMap, List.not_mem_nil, or_false] at hc
  rcases hc with rfl | ⟨b, -, hc⟩ | rfl
  · decide
  · exact escape_ge b c hc
  · decide

/-! ## Values -/

/-- What follows a value never goes on with a number -/
def NoNum (r : Bytes) : Prop := ∀ b t, r = b :: t → ¬ NumByte b

theorem span_inj (t : Bytes) : ∀ (t' r r' : Bytes), (∀ b ∈ t, NumByte b) → (∀ b ∈ t', NumByte b) → NoNum r → NoNum r' → t ++ r = t' ++ r' →
    t = t' ∧ r = r' := by
  induction t with
  | nil =>
    intro t' r r' _ h2 h3 _ h
    cases t' with
    | nil => exact ⟨rfl, h⟩
    | cons b t' => exact absurd (h2 b List.mem_cons_self) (h3 b _ h)
  | cons b t ih =>
    intro t' r r' h1 h2 h3 h4 h
    cases t' with
    | nil => exact absurd (h1 b List.mem_cons_self) (h4 b _ h.symm)
    | cons c t' =>
      simp only [List.cons_append, List.cons.injEq] at h
      obtain ⟨e, h⟩ := h
      obtain ⟨e2, h2⟩ := ih t' r r' (fun x hx => h1 x (List.mem_cons_of_mem _ hx)) (fun x hx => h2 x (List.mem_cons_of_mem _ hx)) h3 h4 h
      exact ⟨by rw [e, e2], h2⟩

theorem noNum_cons {b : UInt8} (h : ¬ NumByte b) (r : Bytes) : NoNum (b :: r) := by
  intro c t e
  simp only [List.cons.injEq] at e
  rw [← e.1]
  exact h

/-- The first byte of a value -/
theorem text_head (v : Json) (h : Printed v) : ∃ b t, v.text = b :: t ∧ b ≠ 93 ∧ b ≠ 125 ∧ b ≠ 44 := by
  cases v with
  | null => exact ⟨_, _, rfl, by decide, by decide, by decide⟩
  | bool b => cases b <;> exact ⟨_, _, rfl, by decide, by decide, by decide⟩
  | num t =>
    obtain ⟨h1, h2⟩ := h
    cases t with
    | nil => exact absurd rfl h1
    | cons b t =>
      refine ⟨b, t, rfl, ?_, ?_, ?_⟩ <;> rintro rfl <;> exact absurd (h2 _ List.mem_cons_self) (by decide)
  | str s => exact ⟨_, _, rfl, by decide, by decide, by decide⟩
  | arr l => exact ⟨_, _, rfl, by decide, by decide, by decide⟩
  | obj l => exact ⟨_, _, rfl, by decide, by decide, by decide⟩

theorem items_text (v : Json) (l : Items) : (Items.cons v l).text = v.text ++ (match l with | .nil => [] | l => 44 :: l.text) := by
  cases l with
  | nil => simp [Items.text]
  | cons w l => rw [Items.text]

theorem fields_text (k : Bytes) (v : Json) (l : Fields) :
    (Fields.cons k v l).text = quoted k ++ 58 :: (v.text ++ (match l with | .nil => [] | l => 44 :: l.text)) := by
  cases l with
  | nil => simp [Fields.text]
  | cons k' w l => rw [Fields.text]

theorem num_other {t r x : Bytes} {b : UInt8} (h : t ≠ [] ∧ ∀ b ∈ t, NumByte b) (e : t ++ r = b :: x) (hb : ¬ NumByte b) : False := by
  obtain ⟨h1, h2⟩ := h
  cases t with
  | nil => exact h1 rfl
  | cons c t =>
    simp only [List.cons_append, List.cons.injEq] at e
    exact hb (e.1 ▸ h2 c List.mem_cons_self)

mutual
theorem text_inj : ∀ (v w : Json) (r r' : Bytes), Printed v → Printed w → NoNum r → NoNum r' → v.text ++ r = w.text ++ r' → v = w ∧ r = r'
  | .null, w, r, r', hv, hw, hr, hr', h => by
    cases w with
    | num t => exact (num_other hw h.symm (by decide)).elim
    | bool b => cases b <;> simp [Json.text] at h
    | _ => simp [Json.text, quoted] at h <;> simp [h]
  | .bool true, w, r, r', hv, hw, hr, hr', h => by
    cases w with
    | num t => exact (num_other hw h.symm (by decide)).elim
    | bool b => cases b <;> simp [Json.text] at h <;> simp [h]
    | _ => simp [Json.text, quoted] at h
  | .bool false, w, r, r', hv, hw, hr, hr', h => by
    cases w with
    | num t => exact (num_other hw h.symm (by decide)).elim
    | bool b => cases b <;> simp [Json.text] at h <;> simp [h]
    | _ => simp [Json.text, quoted] at h
  | .num t, w, r, r', hv, hw, hr, hr', h => by
    cases w with
    | num t' =>
      obtain ⟨e, h2⟩ := span_inj t t' r r' hv.2 hw.2 hr hr' h
      exact ⟨by rw [e], h2⟩
    | bool b => cases b <;> exact (num_other hv h (by decide)).elim
    | _ => exact (num_other hv h (by decide)).elim
  | .str s, w, r, r', hv, hw, hr, hr', h => by
    cases w with
    | num t => exact (num_other hw h.symm (by decide)).elim
    | bool b => cases b <;> simp [Json.text, quoted] at h
    | str s' =>
      obtain ⟨e, h2⟩ := quoted_inj s s' r r' h
      exact ⟨by rw [e], h2⟩
    | _ => simp [Json.text, quoted] at h
  | .arr l, w, r, r', hv, hw, hr, hr', h => by
    cases w with
    | num t => exact (num_other hw h.symm (by decide)).elim
    | bool b => cases b <;> simp [Json.text] at h
    | arr l' =>
      simp only [Json.text, List.cons_append, List.append_assoc, List.cons.injEq, true_and, List.nil_append] at h
      obtain ⟨e, h2⟩ := items_inj l l' r r' hv hw h
      exact ⟨by rw [e], h2⟩
    | _ => simp [Json.text, quoted] at h
  | .obj l, w, r, r', hv, hw, hr, hr', h => by
    cases w with
    | num t => exact (num_other hw h.symm (by decide)).elim
    | bool b => cases b <;> simp [Json.text] at h
    | obj l' =>
      simp only [Json.text, List.cons_append, List.append_assoc, List.cons.injEq, true_and, List.nil_append] at h
      obtain ⟨e, h2⟩ := fields_inj l l' r r' hv hw h
      exact ⟨by rw [e], h2⟩
    | _ => simp [Json.text, quoted] at h
theorem items_inj : ∀ (l l' : Items) (r r' : Bytes), PrintedItems l → PrintedItems l' → l.text ++ 93 :: r = l'.text ++ 93 :: r' → l = l' ∧ r = r'
  | .nil, l', r, r', hl, hl', h => by
    cases l' with
    | nil => simpa [Items.text] using h
    | cons w l' =>
      obtain ⟨b, t, e, n, -, -⟩ := text_head w hl'.1
      rw [items_text, e] at h
      simp [Items.text] at h
      exact absurd h.1.symm n
  | .cons v l, l', r, r', hl, hl', h => by
    cases l' with
    | nil =>
      obtain ⟨b, t, e, n, -, -⟩ := text_head v hl.1
      rw [items_text, e] at h
      simp [Items.text] at h
      exact absurd h.1 n
    | cons w l' =>
      rw [items_text, items_text, List.append_assoc, List.append_assoc] at h
      have n1 : ∀ l : Items, NoNum ((match l with | .nil => [] | l => 44 :: l.text) ++ 93 :: r) := by
        intro l; cases l <;> exact noNum_cons (by decide) _
      have n2 : ∀ l : Items, NoNum ((match l with | .nil => [] | l => 44 :: l.text) ++ 93 :: r') := by
        intro l; cases l <;> exact noNum_cons (by decide) _
      obtain ⟨rfl, h5⟩ := text_inj v w _ _ hl.1 hl'.1 (n1 l) (n2 l') h
      clear h
      cases hl0 : l with
      | nil =>
        rw [hl0] at h5
        cases hl1 : l' with
        | nil => rw [hl1] at h5; simp at h5; exact ⟨rfl, h5⟩
        | cons x y => rw [hl1] at h5; simp at h5
      | cons x y =>
        rw [hl0] at h5
        cases hl1 : l' with
        | nil => rw [hl1] at h5; simp at h5
        | cons x' y' =>
          rw [hl1] at h5
          simp only [List.cons_append, List.cons.injEq, true_and] at h5
          rw [← hl0, ← hl1] at h5
          obtain ⟨h1, h2⟩ := items_inj l l' r r' hl.2 hl'.2 h5
          refine ⟨?_, h2⟩
          rw [← hl0, ← hl1, h1]
theorem fields_inj : ∀ (l l' : Fields) (r r' : Bytes), PrintedFields l → PrintedFields l' → l.text ++ 125 :: r = l'.text ++ 125 :: r' → l = l' ∧ r = r'
  | .nil, l', r, r', hl, hl', h => by
    cases l' with
    | nil => simpa [Fields.text] using h
    | cons k w l' =>
      rw [fields_text] at h
      simp [Fields.text, quoted] at h
  | .cons k v l, l', r, r', hl, hl', h => by
    cases l' with
    | nil =>
      rw [fields_text] at h
      simp [Fields.text, quoted] at h
    | cons k' w l' =>
      rw [fields_text, fields_text] at h
      simp only [List.append_assoc, List.cons_append] at h
      obtain ⟨rfl, h4⟩ := quoted_inj _ _ _ _ h
      clear h
      have h := (List.cons.inj h4).2
      clear h4
      have n1 : ∀ l : Fields, NoNum ((match l with | .nil => [] | l => 44 :: l.text) ++ 125 :: r) := by
        intro l; cases l <;> exact noNum_cons (by decide) _
      have n2 : ∀ l : Fields, NoNum ((match l with | .nil => [] | l => 44 :: l.text) ++ 125 :: r') := by
        intro l; cases l <;> exact noNum_cons (by decide) _
      obtain ⟨rfl, h5⟩ := text_inj v w _ _ hl.1 hl'.1 (n1 l) (n2 l') h
      clear h
      cases hl0 : l with
      | nil =>
        rw [hl0] at h5
        cases hl1 : l' with
        | nil => rw [hl1] at h5; simp at h5; exact ⟨rfl, h5⟩
        | cons x0 x y => rw [hl1] at h5; simp at h5
      | cons x0 x y =>
        rw [hl0] at h5
        cases hl1 : l' with
        | nil => rw [hl1] at h5; simp at h5
        | cons x0' x' y' =>
          rw [hl1] at h5
          simp only [List.cons_append, List.cons.injEq, true_and] at h5
          rw [← hl0, ← hl1] at h5
          obtain ⟨h1, h2⟩ := fields_inj l l' r r' hl.2 hl'.2 h5
          refine ⟨?_, h2⟩
          rw [← hl0, ← hl1, h1]
end

/-! ## No control characters -/

theorem numByte_ge {b : UInt8} (h : NumByte b) : (32 : UInt8) ≤ b := by
  revert h
  exact all_bytes (p := fun b => NumByte b → (32 : UInt8) ≤ b) (by decide +kernel) b

mutual
theorem text_ge : ∀ (v : Json), Printed v → ∀ c ∈ v.text, (32 : UInt8) ≤ c
  | .null, _ => by decide
  | .bool true, _ => by decide
  | .bool false, _ => by decide
  | .num t, h => fun c hc => numByte_ge (h.2 c hc)
  | .str s, _ => quoted_ge s
  | .arr l, h => by
    intro c hc
    simp only [Json.text, List.mem_cons, List.mem_append, List.not_mem_nil, or_false] at hc
    rcases hc with rfl | hc | rfl
    · decide
    · exact items_ge l h c hc
    · decide
  | .obj l, h => by
    intro c hc
    simp only [Json.text, List.mem_cons, List.mem_append, List.not_mem_nil, or_false] at hc
    rcases hc with rfl | hc | rfl
    · decide
    · exact fields_ge l h c hc
    · decide
theorem items_ge : ∀ (l : Items), PrintedItems l → ∀ c ∈ l.text, (32 : UInt8) ≤ c
  | .nil, _ => by simp [Items.text]
  | .cons v .nil, h => by rw [Items.text]; exact text_ge v h.1
  | .cons v (.cons w l), h => by
    intro c hc
    rw [Items.text] at hc
    simp only [List.mem_append, List.mem_cons] at hc
    rcases hc with hc | rfl | hc
    · exact text_ge v h.1 c hc
    · decide
    · exact items_ge (.cons w l) h.2 c hc
theorem fields_ge : ∀ (l : Fields), PrintedFields l → ∀ c ∈ l.text, (32 : UInt8) ≤ c
  | .nil, _ => by simp [Fields.text]
  | .cons k v .nil, h => by
    intro c hc
    rw [Fields.text] at hc
    simp only [List.mem_append, List.mem_cons] at hc
    rcases hc with hc | rfl | hc
    · exact quoted_ge k c hc
    · decide
    · exact text_ge v h.1 c hc
  | .cons k v (.cons k' w l), h => by
    intro c hc
    rw [Fields.text] at hc
    simp only [List.mem_append, List.mem_cons] at hc
    rcases hc with hc | rfl | hc | rfl | hc
    · exact quoted_ge k c hc
    · decide
    · exact text_ge v h.1 c hc
    · decide
    · exact fields_ge (.cons k' w l) h.2 c hc
end

theorem put_printed (k : Bytes) (v : Json) (hv : Printed v) : ∀ l : Fields, PrintedFields l → PrintedFields (l.put k v)
  | .nil, _ => ⟨hv, trivial⟩
  | .cons k' w l, h => by
    unfold Fields.put
    split_ifs
    · exact ⟨hv, h.2⟩
    · exact ⟨hv, h⟩
    · exact ⟨h.1, put_printed k v hv l h.2⟩

theorem of_printed : ∀ (d : List (Bytes × Json)) (l : Fields), (∀ p ∈ d, Printed p.2) → PrintedFields l → PrintedFields (Fields.of d l)
  | [], _, _, hl => hl
  | (k, v) :: d, l, hd, hl => by
    unfold Fields.of
    exact of_printed d _ (fun p hp => hd p (List.mem_cons_of_mem _ hp)) (put_printed k v (hd (k, v) List.mem_cons_self) l hl)

/-! ## The text of numbers, dates and levels -/

theorem digit_byte {d : Nat} (h : d < 10) : NumByte (UInt8.ofNat (Char.ofNat (48 + d)).toNat) ∧ (Char.ofNat (48 + d)).toNat < 256 := by
  have : ∀ i : Fin 10, NumByte (UInt8.ofNat (Char.ofNat (48 + i.val)).toNat) ∧ (Char.ofNat (48 + i.val)).toNat < 256 := by decide
  exact this ⟨d, h⟩

theorem digits_bytes (n : Nat) : ∀ c ∈ Timer.digits n, NumByte (UInt8.ofNat c.toNat) ∧ c.toNat < 256 := by
  induction n using Nat.strong_induction_on with
  | _ n ih =>
    rw [Timer.digits]
    split_ifs with h
    · simp
    · intro c hc
      rw [List.mem_append, List.mem_singleton] at hc
      rcases hc with hc | rfl
      · exact ih (n / 10) (by omega) c hc
      · exact digit_byte (by omega)

theorem pad_bytes (w : Nat) : ∀ n, ∀ c ∈ Timer.pad w n, NumByte (UInt8.ofNat c.toNat) ∧ c.toNat < 256 := by
  induction w with
  | zero => exact digits_bytes
  | succ w ih =>
    intro n c hc
    rw [Timer.pad, List.mem_append, List.mem_singleton] at hc
    rcases hc with hc | rfl
    · exact ih _ c hc
    · exact digit_byte (by omega)

theorem padInt_bytes (w : Nat) (z : Int) : ∀ c ∈ Timer.padInt w z, c.toNat < 256 := by
  unfold Timer.padInt
  split_ifs
  · exact fun c hc => (pad_bytes _ _ c hc).2
  · intro c hc
    rw [List.mem_cons] at hc
    rcases hc with rfl | hc
    · decide
    · exact (pad_bytes _ _ c hc).2

theorem render_bytes (s : Timer.Stamp) : (∀ c ∈ (Timer.render s).1, c.toNat < 256) ∧ ∀ c ∈ (Timer.render s).2, c.toNat < 256 := by
  unfold Timer.render
  constructor
  · intro c hc
    simp only [List.mem_append] at hc
    rcases hc with (hc | hc) | hc <;> exact (pad_bytes _ _ c hc).2
  · intro c hc
    simp only [List.mem_append, List.mem_cons] at hc
    rcases hc with (((((hc | rfl | hc) | rfl | hc) | rfl | hc) | rfl | hc) | rfl | hc)
    · exact padInt_bytes _ _ c hc
    all_goals first
      | decide
      | exact (pad_bytes _ _ c hc).2

theorem ascii_inj : ∀ (a b : List Char), (∀ c ∈ a, c.toNat < 256) → (∀ c ∈ b, c.toNat < 256) → ascii a = ascii b → a = b
  | [], [], _, _, _ => rfl
  | [], _ :: _, _, _, h => by simp [ascii] at h
  | _ :: _, [], _, _, h => by simp [ascii] at h
  | c :: a, d :: b, ha, hb, h => by
    simp only [ascii, List.map_cons, List.cons.injEq] at h
    have h1 : c.toNat = d.toNat := by
      have := congrArg UInt8.toNat h.1
      rwa [UInt8.toNat_ofNat', UInt8.toNat_ofNat', Nat.mod_eq_of_lt (ha c List.mem_cons_self), Nat.mod_eq_of_lt (hb d List.mem_cons_self)] at this
    have h2 : c = d := by rw [← Char.ofNat_toNat c, h1, Char.ofNat_toNat]
    rw [h2, ascii_inj a b (fun x hx => ha x (List.mem_cons_of_mem _ hx)) (fun x hx => hb x (List.mem_cons_of_mem _ hx)) h.2]

theorem level_inj (a b : Level) (h : a.name = b.name) : a = b := by
  cases a <;> cases b <;> first | rfl | exact absurd h (by decide)

theorem intText_printed (z : Int) : Printed (.num (intText z)) := by
  have h1 : ∀ n, ascii (Timer.pad 1 n) ≠ [] := by intro n; simp [ascii, Timer.pad]
  have h2 : ∀ n, ∀ b ∈ ascii (Timer.pad 1 n), NumByte b := by
    intro n b hb
    simp only [ascii, List.mem_map] at hb
    obtain ⟨c, hc, rfl⟩ := hb
    exact (pad_bytes 1 n c hc).1
  show intText z ≠ [] ∧ ∀ b ∈ intText z, NumByte b
  unfold intText
  split_ifs
  · exact ⟨h1 _, h2 _⟩
  · refine ⟨by simp, fun b hb => ?_⟩
    rw [List.mem_cons] at hb
    rcases hb with rfl | hb
    · decide
    · exact h2 _ b hb

theorem digits_value (n : Nat) : ∀ m, Timer.digits n = Timer.digits m → n = m := by
  induction n using Nat.strong_induction_on with
  | _ n ih =>
    intro m h
    rw [Timer.digits, Timer.digits.eq_def m] at h
    split_ifs at h with h1 h2 h2
    · omega
    · simp at h
    · simp at h
    · obtain ⟨h3, h4⟩ := List.append_inj' h rfl
      have := ih (n / 10) (by omega) (m / 10) h3
      have := digitChar_inj (n % 10) (m % 10) (by omega) (by omega) (by simpa using h4)
      omega

theorem pad_one_inj (n m : Nat) (h : Timer.pad 1 n = Timer.pad 1 m) : n = m := by
  simp only [Timer.pad] at h
  obtain ⟨h3, h4⟩ := List.append_inj' h rfl
  have := digits_value _ _ h3
  have := digitChar_inj (n % 10) (m % 10) (by omega) (by omega) (by simpa using h4)
  omega

theorem pad_head (n : Nat) (x : Bytes) : ascii (Timer.pad 1 n) ≠ 45 :: x := by
  have h : ∀ c ∈ Timer.pad 1 n, UInt8.ofNat c.toNat ≠ 45 := by
    have hd : ∀ i : Fin 10, UInt8.ofNat (Char.ofNat (48 + i.val)).toNat ≠ 45 := by decide
    have hg : ∀ n, ∀ c ∈ Timer.digits n, UInt8.ofNat c.toNat ≠ 45 := by
      intro n
      induction n using Nat.strong_induction_on with
      | _ n ih =>
        rw [Timer.digits]
        split_ifs with h
        · simp
        · intro c hc
          rw [List.mem_append, List.mem_singleton] at hc
          rcases hc with hc | rfl
          · exact ih (n / 10) (by omega) c hc
          · exact hd ⟨n % 10, by omega⟩
    intro c hc
    simp only [Timer.pad, List.mem_append, List.mem_singleton] at hc
    rcases hc with hc | rfl
    · exact hg _ c hc
    · exact hd ⟨n % 10, by omega⟩
  intro e
  cases hp : Timer.pad 1 n with
  | nil => rw [hp] at e; simp [ascii] at e
  | cons c l =>
    rw [hp] at e
    simp only [ascii, List.map_cons, List.cons.injEq] at e
    exact h c (by rw [hp]; exact List.mem_cons_self) e.1

theorem intText_inj (a b : Int) (h : intText a = intText b) : a = b := by
  have hp : ∀ n m, ascii (Timer.pad 1 n) = ascii (Timer.pad 1 m) → n = m := fun n m e =>
    pad_one_inj n m (ascii_inj _ _ (fun c hc => (pad_bytes 1 n c hc).2) (fun c hc => (pad_bytes 1 m c hc).2) e)
  unfold intText at h
  split_ifs at h with h1 h2 h2
  · have := hp _ _ h; omega
  · exact absurd h (pad_head _ _)
  · exact absurd h.symm (pad_head _ _)
  · have := hp _ _ (List.cons.inj h).2; omega

theorem json_eq (r : Record) (zone : Int) (d t : Bytes) : r.json zone d t =
    .obj (.cons (key "data") (.obj (recordValues r)) (.cons (key "date") (.str d) (.cons (key "level") (.str r.level.name)
      (.cons (key "offset") (.num (intText zone)) (.cons (key "src") (.str r.src) (.cons (key "time") (.str t)
        (.cons (key "topic") (.str r.topic) .nil))))))) := rfl

theorem json_printed (r : Record) (h : RecordPrinted r) (zone : Int) (d t : Bytes) : Printed (r.json zone d t) := by
  rw [json_eq]
  exact ⟨of_printed _ _ h trivial, trivial, trivial, intText_printed zone, trivial, trivial, trivial, trivial⟩

/-! ## C180 -/

/-- What a log call writes: one line, ended by its only line break, without control characters. -/
theorem C180_line (m : Mode) (r : Record) (zone : Int) (s : Bytes) (hr : RecordPrinted r) (h : r.line m zone = .ok s) :
    ∃ body, s = body ++ [10] ∧ (∀ c ∈ body, (32 : UInt8) ≤ c) ∧ body ≠ [] := by
  unfold Record.line at h
  obtain ⟨⟨d, t⟩, -, h⟩ := of_bind_ok h
  simp only [Except.ok.injEq, Record.write] at h
  refine ⟨_, h.symm, text_ge _ (json_printed r hr _ _ _), ?_⟩
  obtain ⟨b, u, e, -⟩ := text_head _ (json_printed r hr zone (ascii d) (ascii t))
  rw [e]
  simp

theorem linesOf_line (body : Bytes) (h : ∀ c ∈ body, (32 : UInt8) ≤ c) (rest : Bytes) : linesOf (body ++ 10 :: rest) = body :: linesOf rest := by
  induction body with
  | nil => simp [linesOf]
  | cons b body ih =>
    have hb : b ≠ 10 := by rintro rfl; exact absurd (h 10 List.mem_cons_self) (by decide)
    rw [List.cons_append, linesOf, ih fun c hc => h c (List.mem_cons_of_mem _ hc)]
    simp [hb]

/-- Whatever was logged, the lines of the text are the records, one line each and in order. -/
theorem C180_lines (m : Mode) : ∀ (l : List (Record × Int)) (texts : List Bytes), (∀ x ∈ l, RecordPrinted x.1) →
    l.map (fun x => x.1.line m x.2) = texts.map .ok → linesOf texts.flatten = texts.map List.dropLast
  | [], [], _, _ => rfl
  | [], _ :: _, _, h => by simp at h
  | _ :: _, [], _, h => by simp at h
  | x :: l, s :: texts, hp, h => by
    simp only [List.map_cons, List.cons.injEq] at h
    obtain ⟨body, rfl, h2, -⟩ := C180_line m x.1 x.2 s (hp x List.mem_cons_self) h.1
    rw [List.flatten_cons, List.append_assoc, List.singleton_append, linesOf_line body h2,
      C180_lines m l texts (fun y hy => hp y (List.mem_cons_of_mem _ hy)) h.2]
    simp

theorem year_small (t : Nat) (s : Timer.Stamp) (h : IsLocal t s) (ht : t < 10 ^ 20) : s.year < 10000 := by
  obtain ⟨hv, h1, h2, h3, h4, h5, h6, h7, h8⟩ := h
  by_contra hy
  have hb := (doy_bounds _ hv).1
  have ho : (Ymd.mk s.year s.month s.day).ord = dby s.year + (dbm s.year s.month : Int) + s.day := rfl
  simp only at hb
  have hd : (3000000 : Int) ≤ dby s.year := by unfold dby; omega
  have he : epoch = 719163 := rfl
  rw [he] at h8
  generalize (Ymd.mk s.year s.month s.day).ord = n at *
  omega

/-- Two log calls with the same line are the same call: level, topic, place, values, the offset, and the time to the nanosecond. -/
theorem C180_reads (m m' : Mode) (r r' : Record) (zone zone' : Int) (s : Bytes) (hr : RecordPrinted r) (hr' : RecordPrinted r')
    (hn : r.nano < U64) (hn' : r'.nano < U64) (h1 : -24 ≤ zone) (h2 : zone ≤ 24) (hloc : 0 ≤ (r.nano : Int) + zone * 3600000000000)
    (hloc' : 0 ≤ (r'.nano : Int) + zone * 3600000000000) (h : r.line m zone = .ok s) (h' : r'.line m' zone' = .ok s) :
    r.level = r'.level ∧ r.topic = r'.topic ∧ r.src = r'.src ∧ recordValues r = recordValues r' ∧ zone = zone' ∧ r.nano = r'.nano := by
  obtain ⟨a, t, ha, hta, la⟩ := C33_convert m r.nano zone hn h1 h2 hloc
  unfold Record.line Timer.convert at h h'
  rw [ha] at h
  obtain ⟨⟨d, u⟩, hd, h'⟩ := of_bind_ok h'
  obtain ⟨b, hb, hd⟩ := of_bind_ok hd
  have h0 : ((r.json zone (ascii (Timer.render a).1) (ascii (Timer.render a).2)).text ++ [10]) = s := by
    simpa [bind, Except.bind, Record.write] using h
  simp only [Except.ok.injEq, Record.write] at h' hd
  rw [← h'] at h0
  have hq := (text_inj _ _ [10] [10] (json_printed r hr _ _ _) (json_printed r' hr' _ _ _) (noNum_cons (by decide) _) (noNum_cons (by decide) _) h0).1
  rw [json_eq, json_eq] at hq
  simp only [Json.obj.injEq, Fields.cons.injEq, Json.str.injEq, Json.num.injEq, true_and, and_true] at hq
  obtain ⟨q1, q2, q3, q4, q5, q6, q7⟩ := hq
  have hz := intText_inj _ _ q4
  refine ⟨level_inj _ _ q3, q7, q5, q1, hz, ?_⟩
  subst hz
  obtain ⟨b', t', hb', htb, lb⟩ := C33_convert m' r'.nano zone hn' h1 h2 hloc'
  rw [hb'] at hb
  simp only [Except.ok.injEq] at hb
  subst hb
  obtain ⟨rfl, rfl⟩ : (Timer.render b').1 = d ∧ (Timer.render b').2 = u := by rw [hd]; exact ⟨rfl, rfl⟩
  have e1 := ascii_inj _ _ (render_bytes a).1 (render_bytes b').1 q2
  have e2 := ascii_inj _ _ (render_bytes a).2 (render_bytes b').2 q6
  have hU : U64 = 18446744073709551616 := by unfold U64; norm_num
  rw [hU] at hn hn'
  have := ((C33_render t t' a b' la lb (year_small t a la (by omega)) (year_small t' b' lb (by omega))).2 (Prod.ext e1 e2)).1
  omega

theorem linesOf_append (a rest : Bytes) : linesOf (a ++ 10 :: rest) = linesOf (a ++ [10]) ++ linesOf rest := by
  induction a with
  | nil => simp [linesOf]
  | cons b a ih =>
    rw [List.cons_append, List.cons_append, linesOf, linesOf, ih]
    by_cases hb : b = 10
    · simp [hb]
    · simp only [if_neg hb]
      cases h : linesOf (a ++ [10]) with
      | nil => cases a with
        | nil => simp [linesOf] at h
        | cons c a =>
          rw [List.cons_append, linesOf] at h
          split_ifs at h
          split at h <;> simp at h
      | cons x y => rfl

/-- The end of a program with one log file, empty or ended by a line break before: its lines are the old ones, and then one for every
record logged, in order. -/
theorem C180_file (m : Mode) (t : Nat) (acts : List Act) (old : String → Bytes) (f : String) (l : List (Record × Int)) (texts : List Bytes)
    (hw : ((Sys.init t).run m acts).thread = .ended) (hp : logPaths (beforeClose (logSends 0 acts)) = [f])
    (hl : ∀ x ∈ l, RecordPrinted x.1) (ht : l.map (fun x => x.1.line m x.2) = texts.map .ok)
    (hs : logTexts (beforeClose (logSends 0 acts)) = texts.flatten) (ho : old f = [] ∨ ∃ a, old f = a ++ [10]) :
    linesOf (((Sys.init t).run m acts).out.disk.content old f) = linesOf (old f) ++ texts.map List.dropLast := by
  rw [C118_one_file m t acts old f hw hp f, if_pos rfl, hs]
  rcases ho with ho | ⟨a, ho⟩
  · rw [ho, List.nil_append]
    exact C180_lines m l texts hl ht
  · rw [ho, List.append_assoc, List.singleton_append, linesOf_append, C180_lines m l texts hl ht]

theorem bind_ok_value {α β : Type} {x : Res α} {a : α} {f : α → β} (h : x = .ok a) : (x >>= fun p => (.ok (f p) : Res β)) = .ok (f a) := by
  rw [h]; rfl

theorem bind_error_value {α β : Type} {x : Res α} {f : α → β} {e : Fault} : (x >>= fun p => (.ok (f p) : Res β)) = .error e ↔ x = .error e := by
  cases x <;> simp [bind, Except.bind]

theorem outcome_none (x : Res Bytes) : outcome x = none ↔ ∃ f, x = .error f := by cases x <;> simp [outcome]

theorem message_ok (m : Mode) (r : Record) (zone : Int) (s : Bytes) (h : r.line m zone = .ok s) : r.message m zone = some s :=
  (congrArg outcome h).trans rfl

theorem message_none (m : Mode) (r : Record) (zone : Int) : r.message m zone = none ↔ ∃ f, r.line m zone = .error f :=
  outcome_none (r.line m zone)

/-- In every zone within a day, at a time not before 1970 there, the worker meets a text: no log call of the macros kills it. -/
theorem C180_no_panic (m : Mode) (r : Record) (zone : Int) (hn : r.nano < U64) (h1 : -24 ≤ zone) (h2 : zone ≤ 24)
    (hloc : 0 ≤ (r.nano : Int) + zone * 3600000000000) : ∃ s, r.message m zone = some s ∧ r.line m zone = .ok s := by
  obtain ⟨a, t, ha, -, -⟩ := C33_convert m r.nano zone hn h1 h2 hloc
  have hc : Timer.convert m r.nano zone = .ok (Timer.render a) := bind_ok_value (f := Timer.render) ha
  have hl : r.line m zone = .ok (r.write zone (Timer.render a)) := bind_ok_value (f := r.write zone) hc
  exact ⟨_, message_ok m r zone _ hl, hl⟩

/-- Otherwise the macros can kill the worker: the closure panics exactly if the conversion of the time does. -/
theorem C180_panic (m : Mode) (r : Record) (zone : Int) : r.message m zone = none ↔ ∃ f, Timer.convert m r.nano zone = .error f := by
  rw [message_none]
  constructor
  · rintro ⟨f, h⟩
    exact ⟨f, (bind_error_value (f := r.write zone)).1 h⟩
  · rintro ⟨f, h⟩
    exact ⟨f, (bind_error_value (f := r.write zone)).2 h⟩

/-! ## Examples -/

/-- A log call: `log_info!("trade", price = -3, name = "a\n\"b\"", list = [true, null])` at 0.000000001 s after 1970 -/
def sampleRecord : Record :=
  { level := .info, topic := key "trade", src := key "x.rs:7", nano := 1
    data := [(key "price", .num (intText (-3))), (key "name", .str [97, 10, 34, 98, 34]), (key "list", .arr (.cons (.bool true) (.cons .null .nil)))] }

/-- Its line -/
theorem sample_line (m : Mode) : sampleRecord.line m 9 = .ok (ascii
    ['{', '"', 'd', 'a', 't', 'a', '"', ':', '{', '"', 'l', 'i', 's', 't', '"', ':', '[', 't', 'r', 'u', 'e', ',', 'n', 'u', 'l', 'l', ']', ',',
      '"', 'n', 'a', 'm', 'e', '"', ':', '"', 'a', '\\', 'n', '\\', '"', 'b', '\\', '"', '"', ',', '"', 'p', 'r', 'i', 'c', 'e', '"', ':', '-', '3', '}', ',',
      '"', 'd', 'a', 't', 'e', '"', ':', '"', '1', '9', '7', '0', '0', '1', '0', '1', '"', ',', '"', 'l', 'e', 'v', 'e', 'l', '"', ':', '"', 'I', 'n', 'f', 'o', '"', ',',
      '"', 'o', 'f', 'f', 's', 'e', 't', '"', ':', '9', ',', '"', 's', 'r', 'c', '"', ':', '"', 'x', '.', 'r', 's', ':', '7', '"', ',',
      '"', 't', 'i', 'm', 'e', '"', ':', '"', '0', '9', ':', '0', '0', ':', '0', '0', '.', '0', '0', '0', ':', '0', '0', '0', ':', '0', '0', '1', '"', ',',
      '"', 't', 'o', 'p', 'i', 'c', '"', ':', '"', 't', 'r', 'a', 'd', 'e', '"', '}', '\n']) := by
  have h0 : Timer.digits 0 = [] := by rw [Timer.digits]; rfl
  have hz : ∀ n, n < 10 → Timer.pad 1 n = [Char.ofNat (48 + n)] := by
    intro n hn
    simp only [Timer.pad, Nat.div_eq_of_lt hn, h0, Nat.mod_eq_of_lt hn, List.nil_append]
  have hd : Timer.daysToDate 0 = .ok (1970, 1, 1) := by
    obtain ⟨y, mo, d, h1, h2, h3⟩ := C33_days_to_date 0
    have := ord_inj ⟨y, mo, d⟩ ⟨1970, 1, 1⟩ h2 (by decide) (by rw [h3]; simp)
    simp only [Ymd.mk.injEq] at this
    rw [h1]
    obtain ⟨a, b, c⟩ := this
    have : y = 1970 := by omega
    subst this b c
    rfl
  have hc : Timer.convert m 1 9 = .ok (Timer.render ⟨1970, 1, 1, 9, 0, 0, 0, 0, 1⟩) := by
    have h1 : Timer.stampOf m 1 9 = .ok ⟨1970, 1, 1, 9, 0, 0, 0, 0, 1⟩ := by
      unfold Timer.stampOf
      have e1 : Timer.addI32 m (Timer.asI32 0) 9 = .ok 9 := by cases m <;> decide
      have e2 : Timer.adjustOffset m 9 (Timer.asI32 0) = .ok (9, 0) := by cases m <;> decide
      have e3 : Timer.asU32 0 = 0 := by decide
      simp [e1, e2, bind, Except.bind, e3, hd]
    unfold Timer.convert
    rw [h1]
    rfl
  have hr : Timer.render ⟨1970, 1, 1, 9, 0, 0, 0, 0, 1⟩ = (['1', '9', '7', '0', '0', '1', '0', '1'],
      ['0', '9', ':', '0', '0', ':', '0', '0', '.', '0', '0', '0', ':', '0', '0', '0', ':', '0', '0', '1']) := by
    simp [Timer.render, Timer.padInt, Timer.pad, h0]
  have e3 : intText (-3) = [45, 51] := by
    unfold intText
    rw [if_neg (by decide), show ((-(-3 : Int)).toNat) = 3 from rfl, hz 3 (by decide)]
    rfl
  have e9 : intText 9 = [57] := by
    unfold intText
    rw [if_pos (by decide), show ((9 : Int).toNat) = 9 from rfl, hz 9 (by decide)]
    rfl
  unfold Record.line
  rw [show sampleRecord.nano = 1 from rfl, hc, hr]
  show Except.ok (Record.write _ _ _) = _
  unfold Record.write
  rw [json_eq]
  have hv : recordValues sampleRecord = .cons (key "list") (.arr (.cons (.bool true) (.cons .null .nil)))
      (.cons (key "name") (.str [97, 10, 34, 98, 34]) (.cons (key "price") (.num [45, 51]) .nil)) := by
    unfold recordValues sampleRecord
    rw [e3]
    rfl
  rw [hv, e9]
  decide +kernel

theorem sample_printed : RecordPrinted sampleRecord := by
  intro p hp
  simp only [sampleRecord, List.mem_cons, List.not_mem_nil, or_false] at hp
  rcases hp with rfl | rfl | rfl
  · exact intText_printed _
  · trivial
  · exact ⟨trivial, trivial, trivial⟩

/-- C180_reads applies to it. -/
example (m : Mode) (r' : Record) (z' : Int) (s : Bytes) (hr' : RecordPrinted r') (hn' : r'.nano < U64)
    (h : sampleRecord.line .checked 9 = .ok s) (h' : r'.line m z' = .ok s) : r'.nano = 1 := by
  have := C180_reads .checked m sampleRecord r' 9 z' s sample_printed hr' (by unfold sampleRecord U64; norm_num) hn' (by norm_num) (by norm_num)
    (by simp only [sampleRecord]; omega) (by omega) h h'
  exact this.2.2.2.2.2.symm

/-- C180_file applies to the program that logs it, in zone 9, and ends. -/
example (m : Mode) (old : String → Bytes) (ho : old "x.log" = []) : ∃ s body, sampleRecord.line m 9 = .ok s ∧ s = body ++ [10] ∧
    linesOf (((Sys.init 1).run m ([.setLevel .info, .control (.setFile "x.log"), .log .info (sampleRecord.message m 9)] ++
      .control .close :: [⟨5, 5, true, true⟩, ⟨6, 6, true, true⟩, ⟨7, 7, true, true⟩].map .work)).out.disk.content old "x.log") = [body] := by
  obtain ⟨s, h1, h2⟩ := C180_no_panic m sampleRecord 9 (by unfold sampleRecord U64; norm_num) (by norm_num) (by norm_num)
    (by simp only [sampleRecord]; omega)
  obtain ⟨body, h3, -, -⟩ := C180_line m sampleRecord 9 s sample_printed h2
  refine ⟨s, body, h2, h3, ?_⟩
  rw [h1]
  have hb : beforeClose (logSends 0 ([.setLevel .info, .control (.setFile "x.log"), .log .info (some s)] ++
      .control .close :: [⟨5, 5, true, true⟩, ⟨6, 6, true, true⟩, ⟨7, 7, true, true⟩].map .work)) = [.setFile "x.log", .lazy (some s)] := by
    simp [logSends, Level.num, beforeClose]
  have hw := (C118_finalize m 1 [.setLevel .info, .control (.setFile "x.log"), .log .info (some s)]
    [⟨5, 5, true, true⟩, ⟨6, 6, true, true⟩, ⟨7, 7, true, true⟩] (by
      intro x hx
      have : x = .setFile "x.log" ∨ x = .lazy (some s) := by simpa [logSends, Level.num] using hx
      rcases this with rfl | rfl
      · trivial
      · rfl) (by simp [Calm]) (by simp [logSends, Level.num])).1
  have := C180_file m 1 _ old "x.log" [(sampleRecord, 9)] [s] hw (by rw [hb]; rfl) (by
    intro x hx
    rw [List.mem_singleton] at hx
    rw [hx]
    exact sample_printed) (by simp [h2]) (by rw [hb]; simp [logTexts, logText]) (.inl ho)
  rw [this, ho, h3]
  simp [linesOf]

end Verif.Props
