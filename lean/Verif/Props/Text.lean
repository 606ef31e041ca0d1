import Verif.QL.Text
import Verif.QL.Dividend
import Verif.Props.Schedule
import Verif.Props.Dividend
import Verif.Props.Cashflow
/-!
# C126 (printed numbers), C127 (periods as numbers), C128 (sorted arrays), C129 (dates as numbers), C130 (durations)
-/
set_option autoImplicit false
namespace Verif.Props
open Verif Verif.QL Verif.Civil

/-! ### C126 -/

/-- Specification: `out` is `ds` with a comma before every group of three characters counted from the right. -/
def Grouped (out ds : List Char) : Prop :=
  ∃ g gs, ds = g ++ List.flatten gs ∧ 1 ≤ g.length ∧ g.length ≤ 3 ∧ (∀ x ∈ gs, x.length = 3) ∧
    out = g ++ (gs.map fun x => ',' :: x).flatten

theorem commaLoop_grouped : ∀ n (ds : List Char) (count : Nat) (acc : List Char), ds.length ≤ n → ds ≠ [] → count % 3 = 0 →
    ∃ out, Grouped out ds ∧ commaLoop count ds.reverse acc = out ++ (if 0 < count then ',' :: acc else acc) := by
  intro n
  induction n with
  | zero =>
    intro ds count acc hn hne
    exact absurd (List.length_eq_zero_iff.1 (Nat.le_zero.1 hn)) hne
  | succ n ih =>
    intro ds count acc hn hne hc
    have hacc : (if 0 < count ∧ count % 3 = 0 then ',' :: acc else acc) = (if 0 < count then ',' :: acc else acc) := by
      simp [hc]
    generalize hacc' : (if 0 < count then ',' :: acc else acc) = acc' at hacc ⊢
    have n1 : ¬ (0 < count + 1 ∧ (count + 1) % 3 = 0) := by omega
    have n2 : ¬ (0 < count + 1 + 1 ∧ (count + 1 + 1) % 3 = 0) := by omega
    by_cases hl : ds.length ≤ 3
    · refine ⟨ds, ⟨ds, [], by simp, List.length_pos_iff.2 hne, hl, by simp, by simp⟩, ?_⟩
      rcases ds with _ | ⟨a, _ | ⟨b, _ | ⟨c, _ | ⟨d, r⟩⟩⟩⟩
      · exact absurd rfl hne
      · simp only [List.reverse_cons, List.reverse_nil, List.nil_append, commaLoop, hacc, List.cons_append]
      · simp only [List.reverse_cons, List.reverse_nil, List.nil_append, List.cons_append, commaLoop, hacc, if_neg n1]
      · simp only [List.reverse_cons, List.reverse_nil, List.nil_append, List.cons_append, commaLoop, hacc, if_neg n1, if_neg n2]
      · simp only [List.length_cons] at hl; omega
    · obtain ⟨ds', t, rfl, ht⟩ : ∃ ds' t, ds = ds' ++ t ∧ t.length = 3 :=
        ⟨ds.take (ds.length - 3), ds.drop (ds.length - 3), (List.take_append_drop _ _).symm, by rw [List.length_drop]; omega⟩
      rcases t with _ | ⟨a, _ | ⟨b, _ | ⟨c, _ | ⟨d, r⟩⟩⟩⟩
      · simp at ht
      · simp at ht
      · simp at ht
      · rw [List.length_append] at hn hl
        simp only [List.length_cons, List.length_nil] at hn hl
        obtain ⟨out, ⟨g, gs, e1, e2, e3, e4, e5⟩, ho⟩ := ih ds' (count + 3)
          (a :: b :: c :: acc') (by omega) (by rintro rfl; simp at hl) (by omega)
        refine ⟨out ++ [',', a, b, c], ⟨g, gs ++ [[a, b, c]], by simp [e1], e2, e3, ?_, by simp [e5]⟩, ?_⟩
        · intro x hx
          rcases List.mem_append.1 hx with hx | hx
          · exact e4 x hx
          · rw [List.mem_singleton.1 hx]; rfl
        · rw [if_pos (by omega)] at ho
          rw [List.reverse_append, show List.reverse [a, b, c] = [c, b, a] from rfl]
          simp only [List.cons_append, List.nil_append, commaLoop, hacc, if_neg n1, if_neg n2]
          rw [show count + 1 + 1 + 1 = count + 3 by omega, ho]
          simp
      · simp only [List.length_cons] at ht; omega

theorem splitDot_none (xs : List Char) (h : '.' ∉ xs) : splitDot xs = [xs] := by
  induction xs with
  | nil => rfl
  | cons a xs ih =>
    rw [splitDot, if_neg (by rintro rfl; exact h (by simp)), ih (fun q => h (by simp [q]))]

theorem splitDot_one (xs ys : List Char) (h : '.' ∉ xs) (h' : '.' ∉ ys) : splitDot (xs ++ '.' :: ys) = [xs, ys] := by
  induction xs with
  | nil => rw [List.nil_append, splitDot, if_pos rfl, splitDot_none ys h']
  | cons a xs ih =>
    rw [List.cons_append, splitDot, if_neg (by rintro rfl; exact h (by simp)), ih (fun q => h (by simp [q]))]

/-- Without a dot -/
theorem withCommas_whole (neg : Bool) (ds : List Char) (hne : ds ≠ []) (hd : '.' ∉ ds) (hm : ds.head? ≠ some '-') :
    ∃ out, Grouped out ds ∧ withCommas ((if neg then ['-'] else []) ++ ds) = (if neg then ['-'] else []) ++ out := by
  obtain ⟨out, h1, h2⟩ := commaLoop_grouped ds.length ds 0 [] (Nat.le_refl _) hne rfl
  refine ⟨out, h1, ?_⟩
  rw [if_neg (by omega), List.append_nil] at h2
  have e : splitDot ((if neg then ['-'] else []) ++ ds) = [(if neg then ['-'] else []) ++ ds] := by
    apply splitDot_none
    cases neg <;> simp [hd]
  unfold withCommas
  rw [e]
  cases neg
  · simp [h2, hm]
  · simp [h2]

/-- With a dot -/
theorem withCommas_dot (neg : Bool) (ds dec : List Char) (hne : ds ≠ []) (hd : '.' ∉ ds) (hm : ds.head? ≠ some '-')
    (hne' : dec ≠ []) (hd' : '.' ∉ dec) :
    ∃ out, Grouped out ds ∧ withCommas ((if neg then ['-'] else []) ++ ds ++ '.' :: dec) =
      (if neg then ['-'] else []) ++ out ++ '.' :: dec := by
  obtain ⟨out, h1, h2⟩ := commaLoop_grouped ds.length ds 0 [] (Nat.le_refl _) hne rfl
  refine ⟨out, h1, ?_⟩
  rw [if_neg (by omega), List.append_nil] at h2
  have e : splitDot ((if neg then ['-'] else []) ++ ds ++ '.' :: dec) = [(if neg then ['-'] else []) ++ ds, dec] := by
    apply splitDot_one _ _ _ hd'
    cases neg <;> simp [hd]
  unfold withCommas
  rw [e]
  cases neg
  · simp [h2, hm, hne']
  · simp [h2, hne']

theorem toDigits_digit (n : Nat) : ∀ c ∈ Nat.toDigits 10 n, c.isDigit = true :=
  fun _ hc => Nat.isDigit_of_mem_toDigits (by norm_num) (by norm_num) hc

theorem not_digit_mem (n : Nat) (x : Char) (hx : x.isDigit = false) : x ∉ Nat.toDigits 10 n := by
  intro h
  rw [toDigits_digit n x h] at hx
  cases hx

theorem toDigits_no_sign (n : Nat) : (Nat.toDigits 10 n).head? ≠ some '-' := by
  intro h
  exact not_digit_mem n '-' (by decide) (List.mem_of_head? h)

theorem toDigits_inj10 {m n : Nat} (h : Nat.toDigits 10 m = Nat.toDigits 10 n) : m = n := by
  rw [← value_toDigits m .D, ← value_toDigits n .D, h]

theorem digitChar_digit (d : Nat) (h : d < 10) : (Nat.digitChar d).isDigit = true := by
  have : ∀ d : Fin 10, (Nat.digitChar d).isDigit = true := by decide
  exact this ⟨d, h⟩

theorem digitChar_inj10 {a b : Nat} (ha : a < 10) (hb : b < 10) (h : Nat.digitChar a = Nat.digitChar b) : a = b := by
  have : ∀ a b : Fin 10, Nat.digitChar a = Nat.digitChar b → a = b := by decide
  exact congrArg Fin.val (this ⟨a, ha⟩ ⟨b, hb⟩ h)

/-- Specification: `s` shows the number of `n` tenths with the sign `neg`, the whole part in groups of three. -/
def ShowsTenths (s : List Char) (neg : Bool) (n : Nat) : Prop :=
  ∃ out, Grouped out (Nat.toDigits 10 (n / 10)) ∧
    s = (if neg then ['-'] else []) ++ out ++ ['.', Nat.digitChar (n % 10)]

/-- Specification: `s` shows the whole number `n` with the sign `neg`, in groups of three. -/
def ShowsWhole (s : List Char) (neg : Bool) (n : Nat) : Prop :=
  ∃ out, Grouped out (Nat.toDigits 10 n) ∧ s = (if neg then ['-'] else []) ++ out

/-- Deleting the commas of grouped digits gives the digits. -/
theorem grouped_filter {out ds : List Char} (h : Grouped out ds) (hc : ',' ∉ ds) : out.filter (· != ',') = ds := by
  obtain ⟨g, gs, rfl, -, -, -, rfl⟩ := h
  have hg : ∀ l : List Char, ',' ∉ l → l.filter (· != ',') = l := by
    intro l hl
    rw [List.filter_eq_self]
    intro a ha
    simp only [bne_iff_ne]
    rintro rfl
    exact hl ha
  rw [List.filter_append, hg g (fun q => hc (by simp [q]))]
  congr 1
  have hgs : ∀ x ∈ gs, ',' ∉ x := fun x hx q => hc (List.mem_append_right _ (List.mem_flatten.2 ⟨x, hx, q⟩))
  clear hc
  induction gs with
  | nil => rfl
  | cons x gs ih =>
    rw [List.map_cons, List.flatten_cons, List.filter_append, List.filter_cons_of_neg (by simp), hg x (hgs x (by simp)),
      ih (fun y hy => hgs y (by simp [hy])), List.flatten_cons]

/-- What is shown can be read back. -/
theorem C126_read_back :
    (∀ s neg neg' n n', ShowsTenths s neg n → ShowsTenths s neg' n' → neg = neg' ∧ n = n') ∧
    (∀ s neg neg' n n', ShowsWhole s neg n → ShowsWhole s neg' n' → neg = neg' ∧ n = n') := by
  have key : ∀ (neg neg' : Bool) (a b : List Char), a.head? ≠ some '-' → b.head? ≠ some '-' →
      (if neg then ['-'] else []) ++ a = (if neg' then ['-'] else []) ++ b → neg = neg' ∧ a = b := by
    intro neg neg' a b ha hb h
    cases neg <;> cases neg' <;> simp at h ⊢
    · exact h
    · rw [h] at ha; simp at ha
    · rw [← h] at hb; simp at hb
    · exact h
  constructor
  · rintro s neg neg' n n' ⟨o1, g1, h1⟩ ⟨o2, g2, h2⟩
    have e := congrArg (List.filter (· != ',')) (h1.symm.trans h2)
    have sg : ∀ neg : Bool, (if neg then ['-'] else []).filter (· != ',') = if neg then ['-'] else [] := by decide
    have dc : ∀ k, (['.', Nat.digitChar (k % 10)] : List Char).filter (· != ',') = ['.', Nat.digitChar (k % 10)] := by
      intro k
      have := digitChar_digit (k % 10) (by omega)
      have hne : Nat.digitChar (k % 10) ≠ ',' := by intro q; rw [q] at this; cases this
      simp [hne]
    simp only [List.filter_append, sg, dc, grouped_filter g1 (not_digit_mem _ _ (by decide)),
      grouped_filter g2 (not_digit_mem _ _ (by decide)), List.append_assoc] at e
    have hd : ∀ (k : Nat) (r : List Char), (Nat.toDigits 10 k ++ r).head? ≠ some '-' := by
      intro k r
      rw [List.head?_append_of_ne_nil _ Nat.toDigits_ne_nil]
      exact toDigits_no_sign k
    obtain ⟨q1, q2⟩ := key neg neg' _ _ (hd _ _) (hd _ _) e
    obtain ⟨q3, q4⟩ := List.append_inj' q2 (by simp)
    have a1 := toDigits_inj10 q3
    have a2 := digitChar_inj10 (by omega) (by omega) (List.cons.inj (List.cons.inj q4).2).1
    exact ⟨q1, by omega⟩
  · rintro s neg neg' n n' ⟨o1, g1, h1⟩ ⟨o2, g2, h2⟩
    have e := congrArg (List.filter (· != ',')) (h1.symm.trans h2)
    have sg : ∀ neg : Bool, (if neg then ['-'] else []).filter (· != ',') = if neg then ['-'] else [] := by decide
    simp only [List.filter_append, sg, grouped_filter g1 (not_digit_mem _ _ (by decide)),
      grouped_filter g2 (not_digit_mem _ _ (by decide))] at e
    obtain ⟨q1, q2⟩ := key neg neg' _ _ (toDigits_no_sign _) (toDigits_no_sign _) e
    exact ⟨q1, toDigits_inj10 q2⟩

theorem nearest_close (tie : Nat → Bool) (q : ℚ) (h : 0 ≤ q) : |(nearest tie q : ℚ) - q| ≤ 1 / 2 := by
  have hf : ((⌊q⌋.toNat : ℚ)) = ⌊q⌋ := by
    have : ((⌊q⌋.toNat : ℤ)) = ⌊q⌋ := Int.toNat_of_nonneg (Int.floor_nonneg.2 h)
    exact_mod_cast congrArg (Int.cast : ℤ → ℚ) this
  have h1 := Int.floor_le q
  have h2 := Int.lt_floor_add_one q
  unfold nearest
  dsimp only
  rw [abs_le]
  split
  · rw [hf] at *; constructor <;> linarith
  · split
    · push_cast; rw [hf] at *; constructor <;> linarith
    · split
      · push_cast; rw [hf] at *; constructor <;> linarith
      · rw [hf] at *; constructor <;> linarith

theorem nearest_mono (tie : Nat → Bool) (p q : ℚ) (h : p ≤ q) : nearest tie p ≤ nearest tie q := by
  have hfl := Int.floor_mono h
  have hn : ⌊p⌋.toNat ≤ ⌊q⌋.toNat := Int.toNat_le_toNat hfl
  rcases Nat.lt_or_eq_of_le hn with hlt | heq
  · have : nearest tie p ≤ ⌊p⌋.toNat + 1 := by
      unfold nearest; dsimp only; split
      · omega
      · split
        · omega
        · split <;> omega
    have : ⌊q⌋.toNat ≤ nearest tie q := by
      unfold nearest; dsimp only; split
      · omega
      · split
        · omega
        · split <;> omega
    omega
  · unfold nearest
    dsimp only
    rw [heq]
    have hpq : p - (⌊q⌋.toNat : ℚ) ≤ q - (⌊q⌋.toNat : ℚ) := by linarith
    generalize p - (⌊q⌋.toNat : ℚ) = a at hpq ⊢
    generalize q - (⌊q⌋.toNat : ℚ) = b at hpq ⊢
    generalize ⌊q⌋.toNat = f
    by_cases a1 : a < 1 / 2
    · rw [if_pos a1]
      split
      · omega
      · split
        · omega
        · split <;> omega
    · have b1 : ¬ b < 1 / 2 := by linarith
      rw [if_neg a1, if_neg b1]
      by_cases a2 : 1 / 2 < b
      · rw [if_pos a2]
        split
        · omega
        · split <;> omega
      · have b2 : ¬ 1 / 2 < a := by linarith
        rw [if_neg b2, if_neg a2]

/-- **C126** (one decimal). The text shows, with the sign of the number, a number of tenths within half a tenth; a larger
number never shows less. -/
theorem C126_written (tie : Nat → Bool) :
    ∃ shown : Num → Nat,
      (∀ x, ShowsTenths (writeNumber tie x) x.neg (shown x)) ∧
      (∀ x, 0 ≤ x.size → |(shown x : ℚ) / 10 - x.size| ≤ 1 / 20) ∧
      (∀ x y, x.size ≤ y.size → shown x ≤ shown y) := by
  refine ⟨fun x => nearest tie (x.size * 10), fun x => ?_, fun x hx => ?_, fun x y h => ?_⟩
  · have hdig : '.' ∉ [Nat.digitChar (nearest tie (x.size * 10) % 10)] := by
      rw [List.mem_singleton]
      intro q
      have := digitChar_digit (nearest tie (x.size * 10) % 10) (by omega)
      rw [← q] at this
      cases this
    obtain ⟨out, h1, h2⟩ := withCommas_dot x.neg (Nat.toDigits 10 (nearest tie (x.size * 10) / 10))
      [Nat.digitChar (nearest tie (x.size * 10) % 10)] Nat.toDigits_ne_nil (not_digit_mem _ _ (by decide)) (toDigits_no_sign _)
      (by simp) hdig
    exact ⟨out, h1, h2⟩
  · have := nearest_close tie (x.size * 10) (by linarith)
    rw [abs_le] at this ⊢
    dsimp only
    constructor <;> linarith [this.1, this.2]
  · exact nearest_mono tie _ _ (by linarith)

/-- **C126** (no decimals). The same for whole numbers. -/
theorem C126_formatted (tie : Nat → Bool) :
    ∃ shown : Num → Nat,
      (∀ x, ShowsWhole (formattedNumber tie x) x.neg (shown x)) ∧
      (∀ x, 0 ≤ x.size → |(shown x : ℚ) - x.size| ≤ 1 / 2) ∧
      (∀ x y, x.size ≤ y.size → shown x ≤ shown y) := by
  refine ⟨fun x => nearest tie x.size, fun x => ?_, fun x hx => nearest_close tie _ hx, fun x y h => nearest_mono tie _ _ h⟩
  obtain ⟨out, h1, h2⟩ := withCommas_whole x.neg (Nat.toDigits 10 (nearest tie x.size)) Nat.toDigits_ne_nil
    (not_digit_mem _ _ (by decide)) (toDigits_no_sign _)
  exact ⟨out, h1, h2⟩

/-- **C126** (same text). Two numbers with the same text have the same sign and differ by at most a tenth. -/
theorem C126_same_text (tie : Nat → Bool) (x y : Num) (hx : 0 ≤ x.size) (hy : 0 ≤ y.size)
    (h : writeNumber tie x = writeNumber tie y) : x.neg = y.neg ∧ |x.size - y.size| ≤ 1 / 10 := by
  obtain ⟨shown, s1, s2, -⟩ := C126_written tie
  obtain ⟨q1, q2⟩ := C126_read_back.1 _ _ _ _ _ (s1 x) (h ▸ s1 y)
  have a := s2 x hx
  have b := s2 y hy
  rw [q2] at a
  rw [abs_le] at *
  exact ⟨q1, by constructor <;> linarith [a.1, a.2, b.1, b.2]⟩

/-- **C126** (infinities). The texts of infinite numbers and of NaN are not changed. -/
theorem C126_special : ∀ s ∈ ["inf", "-inf", "NaN"], withCommas s.toList = s.toList := by decide +kernel

/-- Numbers that are nearly zero keep their sign: -0.04 is written "-0.0". -/
theorem fault_negative_zero (tie : Nat → Bool) :
    writeNumber tie ⟨true, 4 / 100⟩ = "-0.0".toList ∧ formattedNumber tie ⟨true, 4 / 10⟩ = "-0".toList := by
  have h1 : nearest tie (4 / 100 * 10) = 0 := by unfold nearest; norm_num
  have h2 : nearest tie (4 / 10) = 0 := by unfold nearest; norm_num
  unfold writeNumber formattedNumber oneDecimal noDecimals
  dsimp only
  rw [h1, h2]
  exact ⟨by decide +kernel, by decide +kernel⟩

/-- Non-vacuity: a number with two commas. -/
example (tie : Nat → Bool) : writeNumber tie ⟨true, 1234567.26⟩ = "-1,234,567.3".toList := by
  have h1 : nearest tie (1234567.26 * 10) = 12345673 := by
    have e : Int.toNat 12345672 = 12345672 := rfl
    unfold nearest
    norm_num [e]
  unfold writeNumber oneDecimal
  dsimp only
  rw [h1]
  decide +kernel

/-! ### C127 -/

/-- Specification: the length of a unit in seconds; a year has 365.25 days and a month 30.5. -/
def unitLength : PerUnit → ℚ
  | .Y => 31557600
  | .M => 2635200
  | .W => 604800
  | .D => 86400
  | .h => 3600
  | .min => 60
  | .sec => 1

theorem periodTerm_eq (t : Nat × PerUnit) : periodTerm t = t.1 * unitLength t.2 / 31557600 := by
  obtain ⟨n, u⟩ := t
  cases u <;> simp only [periodTerm, unitLength] <;> ring

theorem periodSum_eq (l : List (Nat × PerUnit)) (acc : ℚ) :
    periodSum l acc = acc + (l.map fun t => t.1 * unitLength t.2).sum / 31557600 := by
  induction l generalizing acc with
  | nil => simp [periodSum]
  | cons t l ih => rw [periodSum, ih, periodTerm_eq, List.map_cons, List.sum_cons]; ring

/-- **C127** (value). A period string is worth the sum of its pieces, as years of 365.25 days. -/
theorem C127_value (ps : List Piece) (hne : ps ≠ []) (hok : ∀ p ∈ ps, p.Ok true) :
    periodYears (periodText ps) = .ok ((ps.map fun p => (p.value : ℚ) * unitLength p.unit).sum / 31557600) := by
  unfold periodYears
  rw [scan_periodText true ps hok]
  cases ps with
  | nil => exact absurd rfl hne
  | cons p ps =>
    rw [List.map_cons]
    dsimp only
    rw [periodSum_eq, ← List.map_cons (f := fun p : Piece => (p.value, p.unit)), List.map_map, zero_add]
    rfl

/-- **C127** (sum). Writing one period after the other adds them. -/
theorem C127_append (ps qs : List Piece) (hp : ps ≠ []) (hq : qs ≠ []) (hps : ∀ p ∈ ps, p.Ok true) (hqs : ∀ p ∈ qs, p.Ok true) :
    ∃ a b, periodYears (periodText ps) = .ok a ∧ periodYears (periodText qs) = .ok b ∧
      periodYears (periodText ps ++ periodText qs) = .ok (a + b) := by
  refine ⟨_, _, C127_value ps hp hps, C127_value qs hq hqs, ?_⟩
  have e : periodText ps ++ periodText qs = periodText (ps ++ qs) := by
    clear hp hps
    induction ps with
    | nil => rfl
    | cons p ps ih => rw [List.cons_append, periodText, periodText, ← ih]; simp
  rw [e, C127_value (ps ++ qs) (by simp [hp]) (fun p h => (List.mem_append.1 h).elim (hps p) (hqs p)), List.map_append,
    List.sum_append, add_div]

theorem shifted_elapsed (d b : DT) (ps : List Piece) (hu : ∀ p ∈ ps, ¬ isCalendar p.unit) (h : ShiftedAll 1 d ps b) :
    b.off = d.off ∧ ((b.localNs - d.localNs : Int) : ℚ) = (ps.map fun p => (p.value : ℚ) * unitLength p.unit).sum * 1000000000 := by
  induction ps generalizing d with
  | nil => cases h; simp
  | cons p ps ih =>
    obtain ⟨c, h1, h2⟩ := h
    obtain ⟨q1, q2⟩ := ih c (fun q hq => hu q (by simp [hq])) h2
    refine ⟨q1.trans h1.2.1, ?_⟩
    have key : ((c.localNs - d.localNs : Int) : ℚ) = (p.value : ℚ) * unitLength p.unit * 1000000000 := by
      have h3 := h1.2.2
      have hc := hu p (by simp)
      rw [one_mul] at h3
      cases hp : p.unit <;> rw [hp] at h3 hc <;> first
        | exact absurd trivial hc
        | (simp only at h3
           rw [h3, add_sub_cancel_left]
           simp only [unitSeconds, unitLength]
           push_cast
           ring)
    have e : ((b.localNs - d.localNs : Int) : ℚ) = ((b.localNs - c.localNs : Int) : ℚ) + ((c.localNs - d.localNs : Int) : ℚ) := by
      push_cast; ring
    rw [e, q2, key, List.map_cons, List.sum_cons]
    ring

/-- **C127** (elapsed time). For weeks, days, hours, minutes and seconds the value is exactly the time that passes when the
period is added to any date, in years of 31557600 seconds. -/
theorem C127_elapsed (md : Mode) (d b : DT) (hd : d.Valid) (ps : List Piece) (hne : ps ≠ []) (hok : ∀ p ∈ ps, p.Ok true)
    (hf : ∀ p ∈ ps, p.Fits) (hu : ∀ p ∈ ps, ¬ isCalendar p.unit) (h : addPeriod md d (periodText ps) = .ok b) :
    periodYears (periodText ps) = .ok (((b.instant - d.instant : Int) : ℚ) / 1000000000 / 31557600) := by
  have hc : CalendarFirst ps := by
    clear h hf hok hne
    induction ps with
    | nil => trivial
    | cons p ps ih => exact ⟨fun _ q hq => hu q (by simp [hq]), ih fun q hq => hu q (by simp [hq])⟩
  obtain ⟨q1, q2⟩ := shifted_elapsed d b ps hu ((C41_add_period md d hd ps hne hok hf hc b).1 h)
  rw [C127_value ps hne hok]
  refine congrArg Except.ok ?_
  have e : b.instant - d.instant = b.localNs - d.localNs := by unfold DT.instant; rw [q1]; ring
  rw [e, q2]
  ring

/-- **C127** (invalid texts). A text with no number in front of a unit is refused; adding it to a date panics. -/
theorem C127_invalid (s : List Char) :
    ((∃ e, periodYears s = .error e) ↔ scan true [] s = []) ∧
    (∀ e, periodYears s = .error e → e = .err ∧ ∀ md d, addPeriod md d s = .error .assertion) ∧
    ((∀ c ∈ s, c.isDigit = false) → periodYears s = .error .err) ∧
    ((∀ c ∈ s, c.isDigit = true) → periodYears s = .error .err) := by
  have nodig : ∀ s : List Char, (∀ c ∈ s, c.isDigit = false) → scan true [] s = [] := by
    intro s
    induction s with
    | nil => intro _; simp [scan]
    | cons c s ih =>
      intro h
      rw [scan, if_neg (by rw [h c (by simp)]; simp), if_pos rfl]
      exact ih fun x hx => h x (by simp [hx])
  have dig : ∀ (s acc : List Char), (∀ c ∈ s, c.isDigit = true) → scan true acc s = [] := by
    intro s
    induction s with
    | nil => intro _ _; simp [scan]
    | cons c s ih =>
      intro acc h
      rw [scan, if_pos (h c (by simp))]
      exact ih _ fun x hx => h x (by simp [hx])
  have of : scan true [] s = [] → periodYears s = .error .err := by
    intro h; unfold periodYears; rw [h]
  have back : ∀ e, periodYears s = .error e → scan true [] s = [] := by
    intro e h
    unfold periodYears at h
    cases hs : scan true [] s with
    | nil => rfl
    | cons t r => rw [hs] at h; cases h
  refine ⟨⟨fun ⟨e, h⟩ => back e h, fun h => ⟨_, of h⟩⟩, fun e h => ⟨?_, fun md d => ?_⟩, fun h => of (nodig s h), fun h => of (dig s [] h)⟩
  · rw [of (back e h)] at h
    exact (Except.error.inj h).symm
  · unfold addPeriod
    rw [back e h]

/-- Twelve months are more than a year: 366 days. -/
theorem fault_twelve_months : periodYears "12M".toList = .ok (366 / 365.25) ∧ periodYears "1Y".toList = .ok 1 := by
  have h1 := C127_value [⟨['1', '2'], .M⟩] (by simp) (by simp [Piece.Ok])
  have h2 := C127_value [⟨['1'], .Y⟩] (by simp) (by simp [Piece.Ok])
  have e1 : "12M".toList = periodText [⟨['1', '2'], .M⟩] := by decide
  have e2 : "1Y".toList = periodText [⟨['1'], .Y⟩] := by decide
  rw [e1, e2, h1, h2]
  constructor <;> refine congrArg Except.ok ?_ <;> simp [Piece.value, unitLength] <;> norm_num

/-- Non-vacuity: "1W2D12h" is 9.5 days, and adding it to a date takes 9.5 days. -/
example : periodYears "1W2D12h".toList = .ok (9.5 / 365.25) ∧
    addPeriod .checked (day0 2024 2 25) "1W2D12h".toList = .ok { day0 2024 3 5 with tod := 43200000000000 } := by
  have h1 := C127_value [⟨['1'], .W⟩, ⟨['2'], .D⟩, ⟨['1', '2'], .h⟩] (by simp) (by simp [Piece.Ok])
  have e1 : "1W2D12h".toList = periodText [⟨['1'], .W⟩, ⟨['2'], .D⟩, ⟨['1', '2'], .h⟩] := by decide
  refine ⟨?_, by decide +kernel⟩
  rw [e1, h1]
  refine congrArg Except.ok ?_
  simp [Piece.value, unitLength]
  norm_num

/-! ### C128, C129, C130 -/

/-- **C128** (sorted arrays). The test looks at neighbours only; an empty array makes it panic. -/
theorem C128_neighbours {α : Type} (md : Mode) (gt : α → α → Bool) (l : List α) (hne : l ≠ []) :
    ∃ b, sortedArray md gt l = .ok b ∧
      (b = true ↔ ∀ i (h : i + 1 < l.length), gt (l[i]'(by omega)) l[i + 1] = false) := by
  have key : ∀ l : List α, sortedLoop gt l = true ↔ ∀ i (h : i + 1 < l.length), gt (l[i]'(by omega)) l[i + 1] = false := by
    intro l
    induction l with
    | nil => simp [sortedLoop]
    | cons a l ih =>
      cases l with
      | nil => simp [sortedLoop]
      | cons b r =>
        rw [sortedLoop]
        constructor
        · intro h i hi
          by_cases hg : gt a b = true
          · rw [if_pos hg] at h; cases h
          · rw [if_neg hg] at h
            cases i with
            | zero => simpa using hg
            | succ i => exact ih.1 h i (by simpa using hi)
        · intro h
          have h0 := h 0 (by simp)
          simp only [List.getElem_cons_zero, zero_add, List.getElem_cons_succ] at h0
          rw [h0]
          exact ih.2 fun i hi => h (i + 1) (by simpa using hi)
  refine ⟨sortedLoop gt l, ?_, key l⟩
  cases l with
  | nil => exact absurd rfl hne
  | cons a l => rfl

/-- **C128** (sorted arrays, comparable elements). If any two elements can be compared, the test is right. -/
theorem C128_sorted {T : Type} [LinearOrder T] (md : Mode) (l : List T) :
    (l ≠ [] → sortedArray md (fun a b => decide (b < a)) l = .ok (decide (l.Pairwise (· ≤ ·)))) ∧
    (l = [] → ∃ e, sortedArray md (fun a b => decide (b < a)) l = .error e) := by
  constructor
  · intro hne
    obtain ⟨b, h1, h2⟩ := C128_neighbours md (fun a b => decide (b < a)) l hne
    rw [h1]
    refine congrArg Except.ok ?_
    rw [Bool.eq_iff_iff, h2, decide_eq_true_eq, ← List.isChain_iff_pairwise, List.isChain_iff_getElem]
    simp
  · rintro rfl
    cases md <;> exact ⟨_, rfl⟩

/-- With elements that cannot be compared (NaN, here `none`) an array that is not sorted passes. -/
theorem fault_nan_sorted (md : Mode) : sortedArray md
    (fun a b : Option ℕ => match a, b with | some a, some b => decide (b < a) | _, _ => false) [some 2, none, some 1] = .ok true := by
  rfl

/-- **C129** (dates as numbers). The number of a date grows with the day and is the same exactly on the same day; year (if
not negative), month and day can be read off its digits; it fits a 32-bit number. -/
theorem C129_date_number (a b : DT) (ha : a.Valid) :
    (yyyymmdd a < yyyymmdd b ↔ a.day < b.day) ∧ (yyyymmdd a = yyyymmdd b ↔ a.day = b.day) ∧
    (yyyymmdd a / 10000 = a.ymd.y ∧ yyyymmdd a / 100 % 100 = a.ymd.m ∧ yyyymmdd a % 100 = a.ymd.d) ∧
    -(2 ^ 31 : Int) ≤ yyyymmdd a ∧ yyyymmdd a < 2 ^ 31 := by
  have l1 := yyyymmdd_lt a b
  have l2 := yyyymmdd_lt b a
  have va := ofOrd_valid a.day
  have dm := dim_le (ofOrd a.day).y (ofOrd a.day).m
  have hy : -9999 ≤ a.ymd.y ∧ a.ymd.y ≤ 9999 := by
    have h1 := (ord_lt_iff (ofOrd a.day) ⟨-9999, 1, 1⟩ va (by decide))
    have h2 := (ord_lt_iff ⟨9999, 12, 31⟩ (ofOrd a.day) (by decide) va)
    rw [ord_ofOrd] at h1 h2
    have e1 : (Ymd.mk (-9999) 1 1).ord = minDay := by decide
    have e2 : (Ymd.mk 9999 12 31).ord = maxDay := by decide
    rw [e1] at h1
    rw [e2] at h2
    have n1 : ¬ a.day < minDay := by have := ha.1; omega
    have n2 : ¬ maxDay < a.day := by have := ha.2.1; omega
    rw [h1] at n1
    rw [h2] at n2
    unfold Ymd.lt at n1 n2
    unfold DT.ymd
    dsimp only at n1 n2
    omega
  obtain ⟨a1, a2, a3, a4⟩ := va
  unfold DT.ymd at hy
  refine ⟨l1, by omega, ?_, ?_⟩
  · unfold yyyymmdd DT.ymd
    omega
  · unfold yyyymmdd DT.ymd
    omega

/-- Specification: `s` shows `n` hundredths with the sign `neg`. -/
def ShowsHundredths (s : List Char) (neg : Bool) (n : Nat) : Prop :=
  s = (if neg then ['-'] else []) ++ Nat.toDigits 10 (n / 100) ++ ['.', Nat.digitChar (n / 10 % 10), Nat.digitChar (n % 10)]

/-- **C130** (durations). A duration shows its whole minutes, if there are any, and the hundredths of seconds left; together
they are within half a hundredth of the duration. The seconds shown are at most 60.00. -/
theorem C130_duration (tie : Nat → Bool) (q : ℚ) (h : 0 ≤ q) :
    ∃ (m n : Nat) (t : List Char), ShowsHundredths t false n ∧ n ≤ 6000 ∧ (m : ℚ) * 60 ≤ q ∧ q < (m + 1 : ℚ) * 60 ∧
      |(m : ℚ) * 60 + n / 100 - q| ≤ 1 / 200 ∧
      formatDuration tie ⟨false, q⟩ = if m = 0 then t ++ ['s'] else Nat.toDigits 10 m ++ ['m', ' '] ++ t ++ ['s'] := by
  have h0 : 0 ≤ q / 60 := by positivity
  have hf : ((⌊q / 60⌋.toNat : ℚ)) = ⌊q / 60⌋ := by
    have : ((⌊q / 60⌋.toNat : ℤ)) = ⌊q / 60⌋ := Int.toNat_of_nonneg (Int.floor_nonneg.2 h0)
    exact_mod_cast congrArg (Int.cast : ℤ → ℚ) this
  have h1 := Int.floor_le (q / 60)
  have h2 := Int.lt_floor_add_one (q / 60)
  rw [← hf] at h1 h2
  have hn := nearest_close tie ((q - 60 * (⌊q / 60⌋.toNat : ℚ)) * 100) (by linarith)
  have hm : nearest tie ((q - 60 * (⌊q / 60⌋.toNat : ℚ)) * 100) ≤ 6000 := by
    rw [abs_le] at hn
    have : (nearest tie ((q - 60 * (⌊q / 60⌋.toNat : ℚ)) * 100) : ℚ) < 6001 := by linarith [hn.2]
    exact_mod_cast Nat.lt_succ_iff.1 (by exact_mod_cast this)
  refine ⟨⌊q / 60⌋.toNat, nearest tie ((q - 60 * (⌊q / 60⌋.toNat : ℚ)) * 100),
    twoDecimals tie ⟨false, q - 60 * (⌊q / 60⌋.toNat : ℚ)⟩, rfl, hm, by linarith, by linarith, ?_, ?_⟩
  · rw [abs_le] at hn ⊢
    constructor <;> linarith [hn.1, hn.2]
  · unfold formatDuration
    dsimp only
    by_cases hz : ⌊q / 60⌋.toNat = 0
    · rw [if_pos hz, if_neg (by simp [hz])]
    · rw [if_neg hz, if_pos (by simp only [Bool.not_false, Bool.true_and, decide_eq_true_eq]; omega)]

/-- The seconds can show 60.00, and a negative duration loses its minutes. -/
theorem fault_duration (tie : Nat → Bool) : formatDuration tie ⟨false, 119.996⟩ = "1m 60.00s".toList ∧
    formatDuration tie ⟨true, 90⟩ = "-30.00s".toList := by
  have f1 : ⌊(119.996 : ℚ) / 60⌋.toNat = 1 := by norm_num
  have f2 : ⌊(90 : ℚ) / 60⌋.toNat = 1 := by norm_num
  have n1 : nearest tie ((119.996 - 60 * ((1 : ℕ) : ℚ)) * 100) = 6000 := by
    have e : Int.toNat 5999 = 5999 := rfl
    unfold nearest; norm_num [e]
  have n2 : nearest tie ((90 - 60 * ((1 : ℕ) : ℚ)) * 100) = 3000 := by
    have e : Int.toNat 3000 = 3000 := rfl
    unfold nearest; norm_num [e]
  unfold formatDuration twoDecimals
  dsimp only
  rw [f1, f2, n1, n2]
  exact ⟨by decide +kernel, by decide +kernel⟩

end Verif.Props
