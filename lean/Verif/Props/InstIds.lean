import Verif.TE.InstId
import Verif.TE.Krx
import Verif.Props.Krx
import Verif.Props.Utf8
/-!
# Instrument identifiers and transaction codes

C106 (interned identifiers), C107 (transaction codes). The histories are arbitrary sequences of identifiers.
-/
set_option autoImplicit false
namespace Verif.Props
open Verif Verif.TE.Id Verif.TE.Krx

/-! ## C106 -/

/-- What holds of the table between calls. -/
structure CacheOk (c : Cache) : Prop where
  sound : ∀ d a, c.table d = some a → c.boxes[a]? = some d
  complete : ∀ a d, c.boxes[a]? = some d → c.table d = some a

theorem cache_init : CacheOk Cache.init := by
  refine ⟨fun d a h => ?_, fun a d h => ?_⟩
  · unfold Cache.init at h ⊢
    dsimp only at h ⊢
    split at h
    · rename_i hd; obtain rfl := Option.some.inj h; simp [hd]
    · exact absurd h (by simp)
  · unfold Cache.init at h ⊢
    dsimp only at h ⊢
    rcases a with _ | a
    · rw [List.getElem?_cons_zero] at h; rw [if_pos (Option.some.inj h).symm]
    · simp at h

theorem cache_intern (c : Cache) (h : CacheOk c) (d : IdData) :
    CacheOk (c.intern d).2 ∧ (c.intern d).2.read (c.intern d).1 = some d ∧
      ∃ more, (c.intern d).2.boxes = c.boxes ++ more := by
  unfold Cache.intern Cache.read
  cases hd : c.table d with
  | some a => exact ⟨h, h.sound d a hd, [], by simp⟩
  | none =>
    dsimp only
    refine ⟨⟨fun e a he => ?_, fun a e he => ?_⟩, by simp, [d], rfl⟩
    · dsimp only at he ⊢
      split at he
      · rename_i hed; obtain rfl := Option.some.inj he; simp [hed]
      · have := h.sound e a he
        rw [List.getElem?_append_left (by by_contra hn; rw [List.getElem?_eq_none (by omega)] at this; simp at this)]
        exact this
    · dsimp only at he ⊢
      by_cases ha : a < c.boxes.length
      · rw [List.getElem?_append_left ha] at he
        have hc := h.complete a e he
        rw [if_neg ?_]
        · exact hc
        · rintro rfl; rw [hd] at hc; simp at hc
      · rw [List.getElem?_append_right (by omega)] at he
        have h0 : a - c.boxes.length = 0 := by
          by_contra hn
          rw [List.getElem?_eq_none (by simp; omega)] at he
          simp at he
        rw [h0] at he
        simp only [List.getElem?_cons_zero, Option.some.injEq] at he
        rw [if_pos he.symm]
        exact congrArg some (by omega)

theorem intern_all (l : List IdData) : ∀ c : Cache, CacheOk c →
    CacheOk (internAll c l).2 ∧ (internAll c l).1.length = l.length ∧ (∃ more, (internAll c l).2.boxes = c.boxes ++ more) ∧
      ∀ (i : Nat) (h1 : i < l.length) (h2 : i < (internAll c l).1.length),
        (internAll c l).2.read (internAll c l).1[i] = some l[i] := by
  induction l with
  | nil => intro c h; exact ⟨h, rfl, ⟨[], by simp [internAll]⟩, fun i h1 => absurd h1 (by simp)⟩
  | cons d l ih =>
    intro c h
    obtain ⟨h1, h2, more, h3⟩ := cache_intern c h d
    obtain ⟨k1, k2, ⟨more', k3⟩, k4⟩ := ih _ h1
    have e : internAll c (d :: l) = ((c.intern d).1 :: (internAll (c.intern d).2 l).1, (internAll (c.intern d).2 l).2) := rfl
    rw [e]
    refine ⟨k1, by simp [k2], ⟨more ++ more', by dsimp only; rw [k3, h3, List.append_assoc]⟩, fun i hi hi' => ?_⟩
    cases i with
    | zero =>
      simp only [List.getElem_cons_zero]
      unfold Cache.read at h2 ⊢
      rw [k3, List.getElem?_append_left ?_]
      · exact h2
      · by_contra hn; rw [List.getElem?_eq_none (by omega)] at h2; simp at h2
    | succ i => simpa using k4 i (by simpa using hi) (by simpa using hi')

/-- C106. After every sequence of creations, from the start of the program: every identifier still gives the symbol
and the venue it was made from, and two identifiers are equal exactly if they were made from the same symbol and
venue. -/
theorem C106_interned (l : List IdData) (i j : Nat) (a b : Nat) (hi : i < l.length) (hj : j < l.length)
    (ha : (internAll Cache.init l).1[i]? = some a) (hb : (internAll Cache.init l).1[j]? = some b) :
    (internAll Cache.init l).2.read a = some l[i] ∧ (sameId a b = true ↔ l[i] = l[j]) := by
  obtain ⟨h1, h2, -, h4⟩ := intern_all l Cache.init cache_init
  have ra := h4 i hi (by omega)
  have rb := h4 j hj (by omega)
  rw [List.getElem?_eq_getElem (by omega)] at ha hb
  rw [Option.some.inj ha] at ra
  rw [Option.some.inj hb] at rb
  refine ⟨ra, ?_⟩
  unfold sameId
  rw [beq_iff_eq]
  constructor
  · rintro rfl; rw [ra] at rb; exact Option.some.inj rb
  · intro h
    unfold Cache.read at ra rb
    have ta := h1.complete _ _ ra
    have tb := h1.complete _ _ rb
    rw [h, tb] at ta
    exact (Option.some.inj ta).symm

/-- Creating an identifier again, later, gives an equal one, and leaves the table as it is. -/
theorem C106_again (l : List IdData) (i a : Nat) (hi : i < l.length) (ha : (internAll Cache.init l).1[i]? = some a) :
    (internAll Cache.init l).2.intern l[i] = (a, (internAll Cache.init l).2) := by
  obtain ⟨h1, h2, -, h4⟩ := intern_all l Cache.init cache_init
  have ra := h4 i hi (by omega)
  rw [List.getElem?_eq_getElem (by omega)] at ha
  rw [Option.some.inj ha] at ra
  have := h1.complete _ _ ra
  unfold Cache.intern
  rw [this]

/-- The default identifier exists after every history and is never a dangling reference. -/
theorem C106_default (l : List IdData) : ∃ a, (internAll Cache.init l).2.defaultId = .ok a ∧
    (internAll Cache.init l).2.read a = some ⟨.isin (List.replicate 12 0), .krx⟩ := by
  obtain ⟨h1, -, ⟨more, h3⟩, -⟩ := intern_all l Cache.init cache_init
  have h0 : (internAll Cache.init l).2.boxes[0]? = some IdData.default := by rw [h3]; rfl
  refine ⟨0, ?_, h0⟩
  unfold Cache.defaultId
  rw [h1.complete 0 _ h0]

/-- An ISIN code is accepted exactly if it is well-formed, and is then kept as it is. -/
theorem C106_isin (b x : List UInt8) : isinNew b = .ok x ↔ x = b ∧ IsinOk b := isinNew_iff b x

/-- A ticker of at most 32 bytes is accepted. Two tickers get the same symbol exactly if they are the same up to zero
bytes at the end; in particular exactly if they are equal when neither ends with a zero byte. -/
theorem C106_ticker (b c : List UInt8) (hb : b.length ≤ 32) (hc : c.length ≤ 32) (h0 : b.getLast? ≠ some 0)
    (h1 : c.getLast? ≠ some 0) : (∃ x, tickerNew b = .ok x) ∧ (tickerNew b = tickerNew c ↔ b = c) := by
  have tn : ∀ b : List UInt8, b.length ≤ 32 → tickerNew b = .ok (b ++ List.replicate (32 - b.length) 0) := by
    intro b hb; unfold tickerNew; rw [if_neg (by omega)]
  refine ⟨⟨_, tn b hb⟩, fun h => ?_, fun h => by rw [h]⟩
  rw [tn b hb, tn c hc] at h
  have h := Except.ok.inj h
  -- whoever is shorter is continued by a zero byte
  have key : ∀ (b c : List UInt8), b.length ≤ 32 → c.length ≤ 32 → c.getLast? ≠ some 0 →
      b ++ List.replicate (32 - b.length) 0 = c ++ List.replicate (32 - c.length) 0 → c.length ≤ b.length := by
    intro b c hb hc h1 h
    by_contra hn
    apply h1
    have hpos : 0 < c.length := by omega
    rw [List.getLast?_eq_getElem?]
    have e1 : (b ++ List.replicate (32 - b.length) 0)[c.length - 1]? = some (0 : UInt8) := by
      rw [List.getElem?_append_right (by omega), List.getElem?_replicate, if_pos (by omega)]
    rw [h, List.getElem?_append_left (by omega)] at e1
    exact e1
  have hl : b.length = c.length := le_antisymm (key c b hc hb h0 h.symm) (key b c hb hc h1 h)
  exact (List.append_inj h hl).1

/-- Zero bytes at the end are lost: the one collision. -/
theorem fault_ticker_zero : tickerNew [65] = tickerNew [65, 0] ∧ ([65] : List UInt8) ≠ [65, 0] := by decide

/-- A ticker of more than 32 bytes is refused. -/
theorem C106_ticker_long (b : List UInt8) (h : 32 < b.length) : tickerNew b = .error .err := by
  unfold tickerNew; rw [if_pos h]

/-- **C106** (text of the symbol). After every history the text of an identifier is the ISIN code it was made from, and for a
ticker the ticker itself, followed by zero bytes up to 32 bytes. -/
theorem C106_symbol (l : List IdData) (i a : Nat) (hi : i < l.length) (ha : (internAll Cache.init l).1[i]? = some a) :
    (∀ b x, l[i].symbol = .isin x → isinNew b = .ok x → (internAll Cache.init l).2.symbolBytes a = some b) ∧
    (∀ b x, l[i].symbol = .ticker x → tickerNew b = .ok x →
      (internAll Cache.init l).2.symbolBytes a = some (b ++ List.replicate (32 - b.length) 0)) := by
  have hr := (C106_interned l i i a a hi hi ha ha).1
  unfold Cache.symbolBytes
  rw [hr]
  refine ⟨fun b x hs hx => ?_, fun b x hs hx => ?_⟩
  · rw [Option.map_some, hs, ((isinNew_iff b x).1 hx).1]
  · rw [Option.map_some, hs]
    unfold tickerNew at hx
    split at hx
    · cases hx
    · rw [← Except.ok.inj hx]

/-- Text followed by a zero byte -/
theorem utf8_zero : ∀ n (l : List UInt8), l.length ≤ n → (TE.Krx.utf8 (l ++ [0]) = true ↔ TE.Krx.utf8 l = true) := by
  intro n
  induction n with
  | zero =>
    intro l hl
    rw [List.length_eq_zero_iff.1 (Nat.le_zero.1 hl)]
    exact ⟨fun _ => rfl, fun _ => by decide⟩
  | succ n ih =>
    intro l hl
    have z : (0 : UInt8).toNat = 0 := rfl
    constructor
    · intro h
      rcases utf8_forms _ h with e | ⟨a, r, e, h1, hr⟩ | ⟨a, b, r, e, h1, h2, h3, hr⟩ | ⟨a, b, c, r, e, h1, h2, h3, h4, hr⟩ |
        ⟨a, b, c, d, r, e, h1, h2, h3, h4, h5, hr⟩
      · simp at e
      · rcases l with _ | ⟨x, l⟩
        · rfl
        · simp only [List.cons_append, List.nil_append, List.cons.injEq] at e
          obtain ⟨rfl, rfl⟩ := e
          rw [utf8_1 _ _ h1]
          exact (ih l (by simp only [List.length_cons] at hl; omega)).1 hr
      · rcases l with _ | ⟨x, _ | ⟨y, l⟩⟩
        · rfl
        · simp only [List.cons_append, List.nil_append, List.cons.injEq] at e
          obtain ⟨-, rfl, -⟩ := e
          omega
        · simp only [List.cons_append, List.nil_append, List.cons.injEq] at e
          obtain ⟨rfl, rfl, rfl⟩ := e
          rw [utf8_2 _ _ _ h1 h2, Bool.and_eq_true, decide_eq_true_eq]
          exact ⟨h3, (ih l (by simp only [List.length_cons] at hl; omega)).1 hr⟩
      · have hb : 0x80 ≤ b.toNat := by have := h3.1; split at this <;> omega
        rcases l with _ | ⟨x, _ | ⟨y, _ | ⟨w, l⟩⟩⟩
        · rfl
        · simp only [List.cons_append, List.nil_append, List.cons.injEq] at e
          obtain ⟨-, rfl, -⟩ := e
          omega
        · simp only [List.cons_append, List.nil_append, List.cons.injEq] at e
          obtain ⟨-, -, rfl, -⟩ := e
          omega
        · simp only [List.cons_append, List.nil_append, List.cons.injEq] at e
          obtain ⟨rfl, rfl, rfl, rfl⟩ := e
          rw [utf8_3 _ _ _ _ h1 h2]
          simp only [Bool.and_eq_true, decide_eq_true_eq]
          exact ⟨⟨h3, h4⟩, (ih l (by simp only [List.length_cons] at hl; omega)).1 hr⟩
      · have hb : 0x80 ≤ b.toNat := by have := h3.1; split at this <;> omega
        rcases l with _ | ⟨x, _ | ⟨y, _ | ⟨w, _ | ⟨v, l⟩⟩⟩⟩
        · rfl
        · simp only [List.cons_append, List.nil_append, List.cons.injEq] at e
          obtain ⟨-, rfl, -⟩ := e
          omega
        · simp only [List.cons_append, List.nil_append, List.cons.injEq] at e
          obtain ⟨-, -, rfl, -⟩ := e
          omega
        · simp only [List.cons_append, List.nil_append, List.cons.injEq] at e
          obtain ⟨-, -, -, rfl, -⟩ := e
          omega
        · simp only [List.cons_append, List.nil_append, List.cons.injEq] at e
          obtain ⟨rfl, rfl, rfl, rfl, rfl⟩ := e
          rw [utf8_4 _ _ _ _ _ h1]
          simp only [Bool.and_eq_true, decide_eq_true_eq]
          exact ⟨⟨⟨⟨h2, h3⟩, h4⟩, h5⟩, (ih l (by simp only [List.length_cons] at hl; omega)).1 hr⟩
    · intro h
      obtain ⟨cs, rfl⟩ := (C105_text l).1 h
      exact (C105_text _).2 ⟨cs ++ [Char.ofNat 0], by rw [List.flatMap_append]; rfl⟩

/-- **C106** (is it text?). The text of an identifier is taken without a check. For an ISIN code it is always text; for a
ticker it is text exactly if the bytes it was made from are. -/
theorem C106_text (b x : List UInt8) :
    (isinNew b = .ok x → TE.Krx.utf8 x = true) ∧ (tickerNew b = .ok x → (TE.Krx.utf8 x = true ↔ TE.Krx.utf8 b = true)) := by
  constructor
  · intro h
    obtain ⟨rfl, -, h3⟩ := (isinNew_iff b x).1 h
    have : ∀ l : List UInt8, (∀ y ∈ l, y.toNat < 128) → TE.Krx.utf8 l = true := by
      intro l
      induction l with
      | nil => intro _; rfl
      | cons a l ih => exact fun q => by rw [utf8_1 _ _ (q a (by simp))]; exact ih fun y hy => q y (by simp [hy])
    exact this x fun y hy => (u8_lt _ _).1 (h3 y hy).1
  · intro h
    unfold tickerNew at h
    split at h
    · cases h
    · rw [← Except.ok.inj h]
      generalize 32 - b.length = k
      induction k with
      | zero => simp
      | succ k ih => rw [List.replicate_succ', ← List.append_assoc, utf8_zero _ _ (Nat.le_refl _), ih]

/-- A ticker that is no text is accepted: its text is then undefined behaviour. -/
theorem fault_ticker_not_text : ∃ x, tickerNew [255] = .ok x ∧ TE.Krx.utf8 x = false := ⟨_, rfl, by decide +kernel⟩

/-- Non-vacuity: three identifiers, the first and the third from the same data. -/
example : let l : List IdData := [⟨.isin (ascii "KR4101V90006"), .krx⟩, ⟨.ticker (ascii "AAPL"), .si⟩,
      ⟨.isin (ascii "KR4101V90006"), .krx⟩, ⟨.isin (ascii "KR4101V90006"), .kis⟩]
    (internAll Cache.init l).1 = [1, 2, 1, 3] := by decide

/-! ## C107 -/

/-- C107. Every code has at most one interface: the table never lists a code twice, so the order of its entries does
not matter. -/
theorem C107_unique (code a b : String) (la lb : List String) (ha : (a, la) ∈ trCodes) (hb : (b, lb) ∈ trCodes)
    (hca : code ∈ la) (hcb : code ∈ lb) : a = b := by
  have nd : trCodes.Pairwise (fun a b => ∀ x ∈ a.2, x ∉ b.2) := by decide +kernel
  by_contra hne
  obtain ⟨i, hi, ei⟩ := List.getElem_of_mem ha
  obtain ⟨j, hj, ej⟩ := List.getElem_of_mem hb
  have hp := List.pairwise_iff_getElem.1 nd
  rcases Nat.lt_trichotomy i j with h | h | h
  · have := hp i j hi hj h
    rw [ei, ej] at this
    exact this _ hca hcb
  · subst h
    rw [ei] at ej
    exact hne (Prod.mk.inj ej).1
  · have := hp j i hj hi h
    rw [ei, ej] at this
    exact this _ hcb hca

/-- The lookup answers exactly what the table says. -/
theorem C107_lookup (code name : String) : trLookup code = some name ↔ ∃ l, (name, l) ∈ trCodes ∧ code ∈ l := by
  unfold trLookup
  constructor
  · intro h
    obtain ⟨e, he, rfl⟩ := Option.map_eq_some_iff.1 h
    have h1 := List.mem_of_find?_eq_some he
    have h2 := List.find?_some he
    exact ⟨e.2, by simpa using h1, by simpa using h2⟩
  · rintro ⟨l, hl, hc⟩
    cases hf : trCodes.reverse.find? fun e => e.2.contains code with
    | none =>
      rw [List.find?_eq_none] at hf
      have := hf (name, l) (by simpa using hl)
      simp [hc] at this
    | some e =>
      have h1 := List.mem_of_find?_eq_some hf
      have h2 := List.find?_some hf
      simp only [Option.map_some, Option.some.injEq]
      exact C107_unique code e.1 name e.2 l (by simpa using h1) hl (by simpa using h2) hc

/-- The families of derivative codes: products 01 to 16. -/
def products : List String :=
  ["01", "02", "03", "04", "05", "06", "07", "08", "09", "10", "11", "12", "13", "14", "15", "16"]

/-- Every product's trades (A3), quotes (B6) and trades with quotes (G7) have an interface, ten levels for stock
derivatives (04, 05) and five for the others, except for trades with quotes of product 14, which the table lacks. -/
theorem C107_derivatives (x : String) (hx : x ∈ products) :
    trLookup ("A3" ++ x ++ "F") = some "IFMSRPD0036" ∧
    trLookup ("B6" ++ x ++ "F") = some (if x = "04" ∨ x = "05" then "IFMSRPD0035" else "IFMSRPD0034") ∧
    trLookup ("G7" ++ x ++ "F")
      = (if x = "14" then none else some (if x = "04" ∨ x = "05" then "IFMSRPD0038" else "IFMSRPD0037")) := by
  revert x
  decide +kernel

end Verif.Props
