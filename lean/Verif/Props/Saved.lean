import Verif.Saved
import Verif.Props.InstIds
import Mathlib.Data.List.Nodup
import Mathlib.Tactic.SplitIfs
/-!
# C166, C167: what can be loaded after it has been saved
-/
set_option autoImplicit false
namespace Verif.Props
open Verif Verif.QL Verif.Float Verif.Civil Verif.Saved Verif.TE.Num Verif.TE.Id

/-! ## Specification -/

/-- What is saved is loaded again, the same -/
def Loads {α : Type} (c : Codec α) (x : α) : Prop := c.read (c.write x) = some x

/-- What is saved cannot be loaded -/
def Lost {α : Type} (c : Codec α) (x : α) : Prop := c.read (c.write x) = none

/-- A finite number -/
def IsNum (x : Fl) : Prop := ∃ s q, x = .fin s q

/-- A date-time of the library: a day of the years -9999 to 9999, a time of day and an offset of less than 26 hours -/
structure IsDate (d : DT) : Prop where
  valid : d.Valid
  low : -93600 < d.off
  high : d.off < 93600

/-! ## Structs -/

def AllLoad : (fs : List Field) → Rec fs → Prop
  | [], _ => True
  | f :: fs, r => Loads f.codec r.1 ∧ AllLoad fs r.2

def SomeLost : (fs : List Field) → Rec fs → Prop
  | [], _ => False
  | f :: fs, r => Lost f.codec r.1 ∨ SomeLost fs r.2

theorem keys_write : ∀ (fs : List Field) (r : Rec fs), (writeFields fs r).map (·.1) = fs.map (·.name)
  | [], _ => rfl
  | f :: fs, r => by simp [writeFields, keys_write fs r.2]

theorem lookups {l : List (String × Json)} (h : (l.map (·.1)).Nodup) : (l.map (·.1)).map (fun n => l.lookup n) = l.map fun p => some p.2 := by
  induction l with
  | nil => rfl
  | cons p l ih =>
    rw [List.map_cons, List.nodup_cons] at h
    rw [List.map_cons, List.map_cons, List.map_cons, ← ih h.2]
    congr 1
    · simp [List.lookup]
    · refine List.map_congr_left fun n hn => ?_
      have : (n == p.1) = false := by
        rw [beq_eq_false_iff_ne]
        rintro rfl
        exact h.1 hn
      simp [List.lookup, this]

theorem fieldsOf_write (fs : List Field) (h : (fs.map (·.name)).Nodup) (r : Rec fs) :
    fieldsOf (fs.map (·.name)) (.obj (writeFields fs r)) = some ((writeFields fs r).map fun p => some p.2) := by
  have k := keys_write fs r
  unfold fieldsOf
  dsimp only
  rw [if_pos]
  · rw [← lookups (by rw [k]; exact h), k]
  · rw [List.all_eq_true]
    intro n _
    rw [k, decide_eq_true_eq]
    exact List.nodup_iff_count_le_one.1 h n

theorem read_all : ∀ (fs : List Field) (r : Rec fs), AllLoad fs r → readFields fs ((writeFields fs r).map fun p => some p.2) = some r
  | [], _, _ => rfl
  | f :: fs, r, h => by
    have h1 : f.codec.read (f.codec.write r.1) = some r.1 := h.1
    simp only [writeFields, List.map_cons, readFields, h1, read_all fs r.2 h.2]
    rfl

theorem read_lost : ∀ (fs : List Field) (r : Rec fs), SomeLost fs r → readFields fs ((writeFields fs r).map fun p => some p.2) = none
  | [], _, h => h.elim
  | f :: fs, r, h => by
    simp only [writeFields, List.map_cons, readFields]
    rcases h with h | h
    · have h1 : f.codec.read (f.codec.write r.1) = none := h
      rw [h1]; rfl
    · rw [read_lost fs r.2 h]
      cases f.codec.read (f.codec.write r.1) <;> rfl

/-- A struct whose fields can all be loaded can be loaded, -/
theorem struct_loads (fs : List Field) (h : (fs.map (·.name)).Nodup) (r : Rec fs) (hl : AllLoad fs r) : Loads (structC fs) r := by
  show (fieldsOf _ (.obj (writeFields fs r))).bind _ = _
  rw [fieldsOf_write fs h]
  exact read_all fs r hl

/-- one with a field that cannot be loaded cannot. -/
theorem struct_lost (fs : List Field) (h : (fs.map (·.name)).Nodup) (r : Rec fs) (hl : SomeLost fs r) : Lost (structC fs) r := by
  show (fieldsOf _ (.obj (writeFields fs r))).bind _ = _
  rw [fieldsOf_write fs h]
  exact read_lost fs r hl

/-! ## Simple values -/

theorem load_str (s : String) : Loads strC s := rfl

theorem load_bool (b : Bool) : Loads boolC b := rfl

theorem load_nat {w n : Nat} (h : n < 2 ^ w) : Loads (natC w) n := by
  have : (0 : Int) ≤ n ∧ (n : Int) < 2 ^ w := ⟨by omega, by exact_mod_cast h⟩
  simp [Loads, natC, this]

theorem load_int {w : Nat} {z : Int} (h1 : -(2 ^ w) ≤ z) (h2 : z < 2 ^ w) : Loads (intC w) z := by
  simp [Loads, intC, h1, h2]

theorem load_real {x : Fl} (h : IsNum x) : Loads realC x := by
  obtain ⟨s, q, rfl⟩ := h
  rfl

theorem lost_real {x : Fl} (h : ¬ IsNum x) : Lost realC x := by
  cases x with
  | fin s q => exact absurd ⟨s, q, rfl⟩ h
  | nan => rfl
  | inf s => rfl

theorem load_none {α : Type} (c : Codec α) : Loads (optC c) none := rfl

theorem load_some {α : Type} {c : Codec α} {x : α} (h : Loads c x) (hn : c.write x ≠ .null) : Loads (optC c) (some x) := by
  unfold Loads at *
  show (match c.write x with | .null => some none | j => (c.read j).map some) = _
  cases hw : c.write x with
  | null => exact absurd hw hn
  | _ => rw [hw] at h; simp [h]

theorem load_some_real {o : Option Fl} (h : ∀ x ∈ o, IsNum x) : Loads (optC realC) o := by
  cases o with
  | none => rfl
  | some x =>
    obtain ⟨s, q, rfl⟩ := h x rfl
    rfl

theorem load_some_str (o : Option String) : Loads (optC strC) o := by cases o <;> rfl

theorem load_vec {α : Type} {c : Codec α} {l : List α} (h : ∀ x ∈ l, Loads c x) : Loads (vecC c) l := by
  show (l.map c.write).mapM c.read = some l
  induction l with
  | nil => rfl
  | cons x l ih =>
    have h1 : c.read (c.write x) = some x := h x List.mem_cons_self
    rw [List.map_cons, List.mapM_cons, h1, ih fun y hy => h y (List.mem_cons_of_mem _ hy)]
    rfl

theorem load_currency (c : Currency) : Loads currencyC c := by
  show (currencies.map fun c => (Saved.Currency.name c, c)).lookup (Saved.Currency.name c) = some c
  cases c <;> decide +kernel

/-- A currency pair is written as a text and read as a struct. -/
theorem lost_fxCode (c : FxCode) : Lost fxCodeC c := rfl

theorem lost_some {α : Type} {c : Codec α} {x : α} (h : Lost c x) (hn : c.write x ≠ .null) : Lost (optC c) (some x) := by
  unfold Lost at *
  show (match c.write x with | .null => some none | j => (c.read j).map some) = _
  cases hw : c.write x with
  | null => exact absurd hw hn
  | _ => rw [hw] at h; simp [h]

theorem load_date {d : DT} (h : IsDate d) : Loads dateC d := by
  obtain ⟨⟨v1, v2, v3⟩, o1, o2⟩ := h
  obtain ⟨y1, y2⟩ := yearOf_spec d.day
  have hy : -9999 ≤ yearOf d.day ∧ yearOf d.day ≤ 9999 := by
    have := day_range (ofOrd d.day) (ofOrd_valid d.day)
    rw [ord_ofOrd] at this
    exact this.1 ⟨v1, v2⟩
  rw [dby_succ] at y2
  unfold dayNs at v3
  show dateRead (dateWrite d) = some d
  unfold dateWrite
  dsimp only [List.map]
  unfold dateRead
  have off : ∃ a b c : Int, d.off.tdiv 3600 = a ∧ (d.off.tdiv 60).tmod 60 = b ∧ d.off.tmod 60 = c ∧ d.off = a * 3600 + b * 60 + c ∧ -25 ≤ a ∧ a ≤ 25 ∧ -59 ≤ b ∧ b ≤ 59 ∧ -59 ≤ c ∧
      c ≤ 59 ∧ ((0 ≤ a ∧ 0 ≤ b ∧ 0 ≤ c) ∨ (a ≤ 0 ∧ b ≤ 0 ∧ c ≤ 0)) := by
    refine ⟨_, _, _, rfl, rfl, rfl, ?_⟩
    rcases le_total 0 d.off with h | h
    · obtain ⟨n, e⟩ := Int.eq_ofNat_of_zero_le h
      rw [e, show (3600 : Int) = ((3600 : Nat) : Int) from rfl, show (60 : Int) = ((60 : Nat) : Int) from rfl, ← Int.ofNat_tdiv, ← Int.ofNat_tdiv, ← Int.ofNat_tmod, ← Int.ofNat_tmod]
      omega
    · obtain ⟨n, e⟩ := Int.eq_ofNat_of_zero_le (show 0 ≤ -d.off by omega)
      have e' : d.off = -(n : Int) := by omega
      rw [e', show (3600 : Int) = ((3600 : Nat) : Int) from rfl, show (60 : Int) = ((60 : Nat) : Int) from rfl, Int.neg_tdiv, Int.neg_tdiv, Int.neg_tmod, Int.neg_tmod,
        ← Int.ofNat_tdiv, ← Int.ofNat_tdiv, ← Int.ofNat_tmod, ← Int.ofNat_tmod]
      omega
  obtain ⟨a, b, c, ea, eb, ec, eo, a1, a2, b1, b2, c1, c2, sg⟩ := off
  -- the time of day in seconds
  have t1 : d.tod / 60000000000 = d.tod / 1000000000 / 60 := by rw [Nat.div_div_eq_div_mul]
  have t2 : d.tod / 3600000000000 = d.tod / 1000000000 / 3600 := by rw [Nat.div_div_eq_div_mul]
  have t3 := Nat.div_add_mod d.tod 1000000000
  have t4 := Nat.mod_lt d.tod (show 1000000000 > 0 by decide)
  have t5 : d.tod / 1000000000 < 86400 := by
    refine Nat.div_lt_of_lt_mul ?_
    exact_mod_cast v3
  rw [ea, eb, ec, t1, t2]
  generalize d.tod / 1000000000 = w at *
  generalize d.tod % 1000000000 = v at *
  have t6 : w / 3600 * 3600 + w / 60 % 60 * 60 + w % 60 = w := by omega
  have t7 : w / 3600 < 24 := by omega
  have t8 : w / 60 % 60 < 60 := by omega
  have t9 : w % 60 < 60 := by omega
  generalize w / 3600 = p at *
  generalize w / 60 % 60 = q at *
  generalize w % 60 = u at *
  dsimp only
  rw [if_pos (by refine ⟨hy.1, hy.2, ?_, ?_, ?_, ?_, ?_, ?_, ?_, ?_, ?_, ?_, a1, a2, b1, b2, c1, c2⟩ <;> omega)]
  congr 1
  have tod : ((p : Int) * 3600000000000 + q * 60000000000 + u * 1000000000 + v).toNat = d.tod := by
    have : ((p : Int) * 3600000000000 + q * 60000000000 + u * 1000000000 + v) = ((1000000000 * w + v : Nat) : Int) := by
      rw [← t6]; push_cast; ring
    rw [this, Int.toNat_natCast, t3]
  cases d with
  | mk day tod' off =>
    dsimp only at *
    congr 1
    · omega
    · rcases sg with ⟨s1, s2, s3⟩ | ⟨s1, s2, s3⟩
      · rw [abs_of_nonneg s2, abs_of_nonneg s3]
        split_ifs <;> omega
      · rw [abs_of_nonpos s2, abs_of_nonpos s3]
        split_ifs <;> omega

theorem load_optType (x : OptType) : Loads optTypeC x := by cases x <;> rfl
theorem load_exercise (x : Exercise) : Loads exerciseC x := by cases x <;> rfl
theorem load_settlement (x : Settlement) : Loads settlementC x := by cases x <;> rfl

/-! ## C166: instruments -/

/-- **C166.** Every currency is loaded as saved; no currency pair ever is. -/
theorem C166_currency (c : Currency) (p : FxCode) : Loads currencyC c ∧ Lost fxCodeC p := ⟨load_currency c, lost_fxCode p⟩

/-- Finite numbers are loaded as saved; NaN and infinities are not, and an optional one comes back as if it had not been given. -/
theorem C166_number (x : Fl) : (IsNum x → Loads realC x) ∧ (¬ IsNum x → Lost realC x ∧ (optC realC).read ((optC realC).write (some x)) = some none) := by
  refine ⟨load_real, fun h => ⟨lost_real h, ?_⟩⟩
  cases x with
  | fin s q => exact absurd ⟨s, q, rfl⟩ h
  | nan => rfl
  | inf s => rfl

/-- Every date-time is loaded as saved, with its offset. -/
theorem C166_date (d : DT) (h : IsDate d) : Loads dateC d := load_date h

/-- An option with numbers and dates is loaded as saved if its currency is that of its underlying, and cannot be loaded if it is another. -/
theorem C166_option {strike notional : Fl} {issue last maturity settle : DT} (unds : List String) (und ccy : Currency) (ty : OptType) (ex : Exercise) (ds : Settlement)
    (name code : String) :
    (und = ccy → IsNum strike → IsNum notional → IsDate issue → IsDate last → IsDate maturity → IsDate settle →
      Loads (structC optionFields) (optionNew strike notional issue last maturity settle unds und ccy ty ex ds name code)) ∧
    (und ≠ ccy → Lost (structC optionFields) (optionNew strike notional issue last maturity settle unds und ccy ty ex ds name code)) := by
  constructor
  · rintro rfl h1 h2 h3 h4 h5 h6
    refine struct_loads _ (by decide +kernel) _ ?_
    exact ⟨load_real h1, load_real h2, load_date h3, load_date h4, load_date h5, load_date h6, load_vec fun s _ => load_str s, load_currency _, load_currency _,
      by show Loads (optC fxCodeC) (if und ≠ und then _ else none)
         rw [if_neg (by simp)]; exact load_none _,
      load_optType _, load_exercise _, load_settlement _, load_str _, load_str _, trivial⟩
  · intro hne
    refine struct_lost _ (by decide +kernel) _ ?_
    refine Or.inr (Or.inr (Or.inr (Or.inr (Or.inr (Or.inr (Or.inr (Or.inr (Or.inr (Or.inl ?_)))))))))
    show Lost (optC fxCodeC) (if ccy ≠ und then _ else none)
    rw [if_pos (fun h => hne h.symm)]
    exact lost_some (lost_fxCode _) (by intro h; cases h)

/-- A future with numbers and dates is loaded as saved. -/
theorem C166_futures {avg notional : Fl} {first last maturity settle : DT} (ccy und : Currency) (code name own : String) (h1 : IsNum avg) (h2 : IsDate first) (h3 : IsDate last)
    (h4 : IsDate maturity) (h5 : IsDate settle) (h6 : IsNum notional) : Loads (structC futuresFields) (futuresNew avg first last maturity settle notional ccy und code name own) :=
  struct_loads _ (by decide +kernel) _
    ⟨load_real h1, load_date h2, load_date h3, load_date h4, load_date h5, load_real h6, load_currency _, load_currency _, load_vec fun s _ => load_str s, load_str _, load_str _, trivial⟩

/-- No currency future can be loaded after it has been saved. -/
theorem C166_fx_futures (avg notional : Fl) (first last maturity settle : DT) (ccy und : Currency) (name code : String) :
    Lost (structC fxFuturesFields) (fxFuturesNew avg first last maturity settle notional ccy und name code) := by
  refine struct_lost _ (by decide +kernel) _ ?_
  exact Or.inr (Or.inr (Or.inr (Or.inr (Or.inr (Or.inr (Or.inr (Or.inr (Or.inl (lost_fxCode _)))))))))

theorem swap_names (P : SwapParts) : ((swapFields P).map (·.name)).Nodup := by
  show (["fixed_legs", "floating_legs", "fixed_rate", "rate_index", "floating_compound_tenor", "calendar", "unit_notional", "issue_date", "effective_date", "maturity",
    "fixed_leg_currency", "floating_leg_currency", "floating_to_fixed_fxcode", "initial_fixed_side_endorsement", "initial_floating_side_payment", "last_fixed_side_payment",
    "last_floating_side_endorsement", "fixed_daycounter", "floating_daycounter", "fixed_busi_convention", "floating_busi_convention", "fixed_frequency", "floating_frequency",
    "fixing_gap_days", "payment_gap_days", "specific_type", "name", "code"] : List String).Nodup
  decide +kernel

/-- A swap whose legs are in different currencies cannot be loaded after it has been saved. -/
theorem C166_swap_lost {P : SwapParts} (a : SwapArgs P) (h : a.fixedCcy ≠ a.floatingCcy) : Lost (structC (swapFields P)) (swapNew a) := by
  refine struct_lost _ (swap_names P) _ ?_
  refine Or.inr (Or.inr (Or.inr (Or.inr (Or.inr (Or.inr (Or.inr (Or.inr (Or.inr (Or.inr (Or.inr (Or.inr (Or.inl ?_))))))))))))
  show Lost (optC fxCodeC) (if a.fixedCcy = a.floatingCcy then none else _)
  rw [if_neg h]
  exact lost_some (lost_fxCode _) (by intro h; cases h)

/-- The parts of a swap other than its currencies can be loaded: numbers, dates and whatever its schedules, rate index, calendar and conventions are made of -/
structure PartsLoad {P : SwapParts} (a : SwapArgs P) : Prop where
  fixedLegs : Loads P.schC a.fixedLegs
  floatingLegs : Loads P.schC a.floatingLegs
  fixedRate : ∀ x ∈ a.fixedRate, IsNum x
  rateIndex : Loads (optC P.idxC) a.rateIndex
  calendar : Loads P.calC a.calendar
  notional : IsNum a.notional
  issue : IsDate a.issue
  effective : IsDate a.effective
  maturity : IsDate a.maturity
  initialFixed : ∀ x ∈ a.initialFixed, IsNum x
  initialFloating : ∀ x ∈ a.initialFloating, IsNum x
  lastFixed : ∀ x ∈ a.lastFixed, IsNum x
  lastFloating : ∀ x ∈ a.lastFloating, IsNum x
  fixedDcc : Loads P.dccC a.fixedDcc
  floatingDcc : Loads P.dccC a.floatingDcc
  fixedBdc : Loads P.bdcC a.fixedBdc
  floatingBdc : Loads P.bdcC a.floatingBdc
  fixedFreq : Loads P.freqC a.fixedFreq
  floatingFreq : Loads P.freqC a.floatingFreq
  fixingGap : -(2 ^ 63) ≤ a.fixingGap ∧ a.fixingGap < 2 ^ 63
  paymentGap : -(2 ^ 63) ≤ a.paymentGap ∧ a.paymentGap < 2 ^ 63
  kind : Loads P.kindC a.kind

/-- A swap in one currency is loaded as saved if its parts are. -/
theorem C166_swap_loads {P : SwapParts} (a : SwapArgs P) (h : a.fixedCcy = a.floatingCcy) (hp : PartsLoad a) : Loads (structC (swapFields P)) (swapNew a) := by
  refine struct_loads _ (swap_names P) _ ?_
  exact ⟨hp.fixedLegs, hp.floatingLegs, load_some_real hp.fixedRate, hp.rateIndex, load_some_str _, hp.calendar, load_real hp.notional, load_date hp.issue, load_date hp.effective,
    load_date hp.maturity, load_currency _, load_currency _,
    by show Loads (optC fxCodeC) (if a.fixedCcy = a.floatingCcy then none else _)
       rw [if_pos h]; exact load_none _,
    load_some_real hp.initialFixed, load_some_real hp.initialFloating, load_some_real hp.lastFixed, load_some_real hp.lastFloating, hp.fixedDcc, hp.floatingDcc, hp.fixedBdc,
    hp.floatingBdc, hp.fixedFreq, hp.floatingFreq, load_int hp.fixingGap.1 hp.fixingGap.2, load_int hp.paymentGap.1 hp.paymentGap.2, hp.kind, load_str _, load_str _, trivial⟩

/-- Dates and numbers of the kind asked for exist, and numbers that are not -/
theorem saved_witness : IsDate ⟨738885, 45000000000000, 32400⟩ ∧ IsDate ⟨738885, 1, -12345⟩ ∧ IsNum (f32.lit 350) ∧ ¬ IsNum (f32.lit (10 ^ 40)) := by
  refine ⟨⟨by decide +kernel, by decide, by decide⟩, ⟨by decide +kernel, by decide, by decide⟩, ⟨false, 350, by decide +kernel⟩, ?_⟩
  rintro ⟨s, q, h⟩
  rw [show f32.lit (10 ^ 40) = .inf false by decide +kernel] at h
  cases h

/-! ## C167: converters and identifiers -/

/-- Lengths and normalizer are numbers of their types -/
structure CfgSized (f : FullCfg) : Prop where
  digit : f.cfg.digit < 2 ^ 64
  dec : f.cfg.dec < 2 ^ 64
  unused : f.cfg.unused < 2 ^ 64
  total : f.cfg.total < 2 ^ 64
  normalizer : ∀ z ∈ f.normalizer, -(2 ^ 31) ≤ z ∧ z < 2 ^ 31

/-- **C167.** A configuration of a number format is loaded as saved, -/
theorem C167_config (f : FullCfg) (h : CfgSized f) : Loads cfgC f := by
  have hl : Loads (structC cfgFields) (f.cfg.digit, f.cfg.dec, f.cfg.signed, f.cfg.unused, f.cfg.total, f.normalizer, f.cfg.drop, ()) := by
    refine struct_loads _ (by decide +kernel) _ ?_
    refine ⟨load_nat h.digit, load_nat h.dec, load_bool _, load_nat h.unused, load_nat h.total, ?_, load_bool _, trivial⟩
    show Loads (optC (intC 31)) f.normalizer
    cases hn : f.normalizer with
    | none => exact load_none _
    | some z =>
      obtain ⟨z1, z2⟩ := h.normalizer z hn
      exact load_some (load_int z1 z2) (by intro h; cases h)
  unfold Loads at *
  simp only [cfgC, mapC]
  rw [hl]
  rfl

theorem bind_ok' {α β : Type} (a : α) (f : α → Res β) : ((Except.ok a : Res α) >>= f) = f a := rfl

theorem addW_ok {w : Nat} {m : Mode} {a b : Nat} (h : a + b < 2 ^ w) : addW w m a b = .ok (a + b) := by unfold addW; rw [if_pos h]

theorem subU_ok {m : Mode} {a b : Nat} (h : b ≤ a) : subU m a b = .ok (a - b) := by unfold subU; rw [if_pos h]

/-- Without overflow `IntegerConverter::new` is the function of the model. -/
theorem convNew_eq (m : Mode) (c : Cfg) (hs : c.digit + c.dec + c.unused + 1 < 2 ^ 64) :
    convNew m c = match Conv.new c with | some v => .ok v | none => .error .err := by
  have hb : c.signed.toNat ≤ 1 := by cases c.signed <;> decide
  have e1 : addW 64 m c.digit c.dec = .ok (c.digit + c.dec) := addW_ok (lt_of_le_of_lt (by clear hs; omega) hs)
  have e2 : addW 64 m (c.digit + c.dec) c.unused = .ok (c.digit + c.dec + c.unused) := addW_ok (lt_of_le_of_lt (by clear hs; omega) hs)
  have e3 : addW 64 m (c.digit + c.dec + c.unused) c.signed.toNat = .ok (c.digit + c.dec + c.unused + c.signed.toNat) := addW_ok (lt_of_le_of_lt (by clear hs; omega) hs)
  have e4 : addW 64 m c.signed.toNat c.unused = .ok (c.signed.toNat + c.unused) := addW_ok (lt_of_le_of_lt (by clear hs; omega) hs)
  clear hs
  unfold convNew Conv.new Cfg.checkValidity
  rw [e1, bind_ok', e2, bind_ok', e3, bind_ok']
  dsimp only
  by_cases ht : c.digit + c.dec + c.unused + c.signed.toNat = c.total
  · have hv : (c.digit + c.dec + c.unused + c.signed.toNat == c.total) = true := by simpa using ht
    rw [if_neg (by simpa using ht), subU_ok (by omega), bind_ok', subU_ok (by omega), bind_ok', e4, bind_ok']
    simp only [hv, if_true]
    cases hd : c.drop with
    | true =>
      simp only [if_true]
      rw [subU_ok (by omega), bind_ok']
      split_ifs <;> rfl
    | false =>
      simp only [Bool.false_eq_true, if_false]
      rw [bind_ok']
      split_ifs <;> rfl
  · have hv : (c.digit + c.dec + c.unused + c.signed.toNat == c.total) = false := by simpa using ht
    rw [if_pos (by simpa using ht)]
    simp only [hv, Bool.false_eq_true, if_false]

theorem convRead_some (m : Mode) {j : Json} {f : FullCfg} (h : cfgC.read j = some f) :
    convRead m j = convNew m f.cfg >>= fun c => (Except.ok ⟨f, c⟩ : Res FullConv) := by
  unfold convRead
  rw [h]

/-- and loading a saved configuration as a converter gives what `IntegerConverter::new` gives for it, an error where that is one. -/
theorem C167_converter (m : Mode) (f : FullCfg) (h : CfgSized f) (hs : f.cfg.digit + f.cfg.dec + f.cfg.unused + 1 < 2 ^ 64) :
    convRead m (cfgC.write f) = match Conv.new f.cfg with | some c => .ok ⟨f, c⟩ | none => .error .err := by
  rw [convRead_some m (C167_config f h), convNew_eq m f.cfg hs]
  cases Conv.new f.cfg <;> rfl

/-- For example the price format of a KRX derivative (sign, 8 digits, 2 decimals; 11 bytes) -/
theorem saved_cfg_witness : ∃ f c, CfgSized f ∧ f.cfg.digit + f.cfg.dec + f.cfg.unused + 1 < 2 ^ 64 ∧ f.normalizer = some (-3) ∧ Conv.new f.cfg = some c ∧ c.size = 10 :=
  ⟨⟨⟨8, 2, true, 0, 11, false⟩, some (-3)⟩, _, ⟨by decide, by decide, by decide, by decide, by intro z hz; cases hz; decide⟩, by decide, rfl, rfl, rfl⟩

/-- But no converter can be loaded after it has been saved itself: it is written with its configuration inside and read as the configuration. -/
theorem C167_converter_lost (m : Mode) (v : FullConv) : convRead m v.write = .error .err := by
  have : cfgC.read v.write = none := by
    have h : (structC cfgFields).read v.write = none := rfl
    simp only [cfgC, mapC]
    rw [h]
    rfl
  unfold convRead
  rw [this]

/-- So neither can anything that holds one: price, quantity, order count, time, yield and cumulative quantity converters. -/
theorem C167_holders_lost (m : Mode) (a b : FullConv) (n : Nat) : Lost (structC (orderConverterFields m)) (a, b, ()) ∧ Lost (structC (orderCounterFields m)) (a, ()) ∧
    Lost (structC (timeConverterFields m)) (a, n, ()) ∧ Lost (structC (singleConverterFields m)) (a, ()) := by
  have h : ∀ v, Lost (convC m) v := fun v => by
    show (match convRead m v.write with | .ok v => some v | .error _ => none) = none
    rw [C167_converter_lost]
  exact ⟨struct_lost (orderConverterFields m) (show (["price", "quantity"] : List String).Nodup by decide +kernel) _ (Or.inl (h a)),
    struct_lost (orderCounterFields m) (show (["order_count"] : List String).Nodup by decide +kernel) _ (Or.inl (h a)),
    struct_lost (timeConverterFields m) (show (["converter", "offset_nanos"] : List String).Nodup by decide +kernel) _ (Or.inl (h a)),
    struct_lost (singleConverterFields m) (show (["converter"] : List String).Nodup by decide +kernel) _ (Or.inl (h a))⟩

/-- The bytes of an identifier as the types hold them: 12 of an ISIN, 32 of a ticker -/
def SymbolSized : Symbol → Prop
  | .isin b => b.length = 12
  | .ticker b => b.length = 32

theorem load_bytes {n : Nat} {b : List UInt8} (h : b.length = n) : Loads (bytesC n) b := by
  show (if (b.map fun x => Json.int x.toNat).length = n then (b.map fun x => Json.int x.toNat).mapM (fun j => ((natC 8).read j).map UInt8.ofNat) else none) = some b
  rw [if_pos (by rw [List.length_map]; exact h)]
  clear h
  induction b with
  | nil => rfl
  | cons x b ih =>
    have h1 : (natC 8).read (.int x.toNat) = some x.toNat := load_nat (w := 8) (by have := x.toNat_lt; omega)
    rw [List.map_cons, List.mapM_cons, h1, ih]
    simp

theorem load_idData {d : IdData} (h : SymbolSized d.symbol) : Loads idDataC d := by
  have hs : Loads symbolC d.symbol := by
    cases hd : d.symbol with
    | isin b =>
      rw [hd] at h
      have h1 : Loads (structC [⟨"isin", List UInt8, bytesC 12, none⟩]) (b, ()) := struct_loads _ (by decide +kernel) _ ⟨load_bytes h, trivial⟩
      show ((((structC [⟨"isin", List UInt8, bytesC 12, none⟩]).read ((structC [⟨"isin", List UInt8, bytesC 12, none⟩]).write (b, ()))).map (·.1)).map Symbol.isin) = _
      rw [show (structC [⟨"isin", List UInt8, bytesC 12, none⟩]).read ((structC [⟨"isin", List UInt8, bytesC 12, none⟩]).write (b, ())) = some (b, ()) from h1]
      rfl
    | ticker b =>
      rw [hd] at h
      have h1 : Loads (structC [⟨"ticker", List UInt8, bytesC 32, none⟩]) (b, ()) := struct_loads _ (by decide +kernel) _ ⟨load_bytes h, trivial⟩
      show ((((structC [⟨"ticker", List UInt8, bytesC 32, none⟩]).read ((structC [⟨"ticker", List UInt8, bytesC 32, none⟩]).write (b, ()))).map (·.1)).map Symbol.ticker) = _
      rw [show (structC [⟨"ticker", List UInt8, bytesC 32, none⟩]).read ((structC [⟨"ticker", List UInt8, bytesC 32, none⟩]).write (b, ())) = some (b, ()) from h1]
      rfl
  have hv : Loads venueC d.venue := by cases d.venue <;> rfl
  have h2 : Loads (structC [⟨"symbol", Symbol, symbolC, none⟩, ⟨"venue", Venue, venueC, none⟩]) (d.symbol, d.venue, ()) := struct_loads _ (by decide +kernel) _ ⟨hs, hv, trivial⟩
  show (((structC [⟨"symbol", Symbol, symbolC, none⟩, ⟨"venue", Venue, venueC, none⟩]).read
    ((structC [⟨"symbol", Symbol, symbolC, none⟩, ⟨"venue", Venue, venueC, none⟩]).write (d.symbol, d.venue, ()))).map _) = some d
  rw [show (structC [⟨"symbol", Symbol, symbolC, none⟩, ⟨"venue", Venue, venueC, none⟩]).read
    ((structC [⟨"symbol", Symbol, symbolC, none⟩, ⟨"venue", Venue, venueC, none⟩]).write (d.symbol, d.venue, ())) = some (d.symbol, d.venue, ()) from h2]
  rfl

/-- An identifier saved at any time is loaded as the very same identifier in the same process (nothing is added to the table), and in a process with any other history
as an identifier of the same symbol and venue. -/
theorem C167_identifier (l l' : List IdData) (i a : Nat) (hi : i < l.length) (ha : (internAll Cache.init l).1[i]? = some a) (hs : SymbolSized l[i].symbol) :
    ∃ j, saveId (internAll Cache.init l).2 a = some j ∧ loadId (internAll Cache.init l).2 j = some (a, (internAll Cache.init l).2) ∧
      ∃ a' c', loadId (internAll Cache.init l').2 j = some (a', c') ∧ c'.read a' = some l[i] := by
  have hr := (C106_interned l i i a a hi hi ha ha).1
  have hl : idDataC.read (idDataC.write l[i]) = some l[i] := load_idData hs
  refine ⟨idDataC.write l[i], by unfold saveId; rw [hr]; rfl, ?_, ?_⟩
  · unfold loadId
    rw [hl]
    show some ((internAll Cache.init l).2.intern l[i]) = _
    rw [C106_again l i a hi ha]
  · obtain ⟨h1, -⟩ := intern_all l' Cache.init cache_init
    obtain ⟨-, h3, -⟩ := cache_intern _ h1 l[i]
    exact ⟨_, _, by unfold loadId; rw [hl]; rfl, h3⟩

/-- What is loaded as an identifier is not checked as `IsinCode::new` checks it: twelve bytes of any value are accepted, also such that the text `symbol_str` makes of them
without a check is no text at all. -/
theorem fault_isin_unchecked : ∃ j a c, loadId Cache.init j = some (a, c) ∧ c.symbolBytes a = some (List.replicate 12 255) ∧ isinNew (List.replicate 12 255) = .error .err ∧
    TE.Krx.utf8 (List.replicate 12 255) = false := by
  have hl : idDataC.read (idDataC.write ⟨.isin (List.replicate 12 255), .krx⟩) = some ⟨.isin (List.replicate 12 255), .krx⟩ := load_idData (by show List.length _ = 12; simp)
  refine ⟨idDataC.write ⟨.isin (List.replicate 12 255), .krx⟩, (Cache.init.intern ⟨.isin (List.replicate 12 255), .krx⟩).1, (Cache.init.intern ⟨.isin (List.replicate 12 255), .krx⟩).2,
    by unfold loadId; rw [hl]; rfl, by decide +kernel, by decide +kernel, by decide +kernel⟩

end Verif.Props
