import Verif.TE.MapLemmas
/-!
# Representation invariant and abstraction function of a half book
-/
namespace Verif.TE
open Verif Verif.Spec

/-- Book side of the specification. -/
def bside : Side → BookSide
  | .ask => .sell
  | .bid => .buy

/-- Resting orders of a list of levels, in list order. -/
def flat (ls : List (Int × Level)) : List Resting :=
  ls.flatMap (fun e => e.2.orders.map (toR e.1))

/-- The priority queue shown by levels in key order: ascending for asks, descending for bids. -/
def queueOf (s : Side) (ls : List (Int × Level)) : List Resting :=
  match s with
  | .ask => flat ls
  | .bid => flat ls.reverse

/-- Abstraction: the priority queue of a half book. -/
def HalfBook.queue (h : HalfBook) : List Resting := queueOf h.side h.levels

/-- A consistent non-empty level stored under its key. -/
structure LevelOK (e : Int × Level) : Prop where
  price : e.2.price = e.1
  nonempty : e.2.orders ≠ []
  pos : Pos e.2.orders
  total : e.2.total = sumQ e.2.orders

/-- Representation invariant. -/
structure HalfBook.WF (h : HalfBook) : Prop where
  sorted : Sorted h.levels
  levels : ∀ e ∈ h.levels, LevelOK e
  total : h.total = volume h.queue
  bound : h.total < U64
  best : h.best = HalfBook.bestOf h.side h.levels
  nodup : (h.queue.map (·.id)).Nodup
  cache : ∀ id p, h.cache id = some p ↔ ∃ o ∈ h.queue, o.id = id ∧ o.price = p

/-! ### `flat`, `queueOf` and `volume` -/

@[simp] theorem flat_nil : flat [] = [] := rfl
@[simp] theorem flat_cons (e ls) : flat (e :: ls) = e.2.orders.map (toR e.1) ++ flat ls := by
  simp [flat]
@[simp] theorem flat_append (a b) : flat (a ++ b) = flat a ++ flat b := by simp [flat]

@[simp] theorem volume_nil : volume [] = 0 := rfl
@[simp] theorem volume_cons (o l) : volume (o :: l) = o.qty + volume l := by simp [volume]
@[simp] theorem volume_append (a b) : volume (a ++ b) = volume a + volume b := by
  induction a with
  | nil => simp
  | cons x xs ih => simp [ih]; omega
@[simp] theorem volume_reverse (a) : volume a.reverse = volume a := by
  induction a with
  | nil => simp
  | cons x xs ih => simp [ih]; omega

theorem mem_flat {o : Resting} {ls} : o ∈ flat ls ↔ ∃ e ∈ ls, o.price = e.1 ∧ (o.id, o.qty) ∈ e.2.orders := by
  simp only [flat, List.mem_flatMap, List.mem_map]
  constructor
  · rintro ⟨e, he, x, hx, rfl⟩; exact ⟨e, he, rfl, hx⟩
  · rintro ⟨e, he, hp, hx⟩; exact ⟨e, he, (o.id, o.qty), hx, by cases o; simp_all [toR]⟩

theorem mem_queueOf {s o ls} : o ∈ queueOf s ls ↔ o ∈ flat ls := by
  cases s
  · rfl
  · simp only [queueOf, mem_flat]; simp

theorem volume_flat {ls : List (Int × Level)} (h : ∀ e ∈ ls, e.2.total = sumQ e.2.orders) :
    volume (flat ls) = (ls.map (·.2.total)).sum := by
  induction ls with
  | nil => simp
  | cons e ls ih =>
    simp [volume_map_toR, ih (fun e he => h e (by simp [he])), h e (by simp)]

theorem volume_flat_reverse (ls) : volume (flat ls.reverse) = volume (flat ls) := by
  induction ls with
  | nil => simp
  | cons e ls ih => simp [ih]; omega

theorem volume_queueOf (s ls) : volume (queueOf s ls) = volume (flat ls) := by
  cases s
  · rfl
  · exact volume_flat_reverse ls

/-- Part of the queue with better prices than the level between `A` and `B`. -/
def pre (s : Side) (A B : List (Int × Level)) : List Resting :=
  match s with
  | .ask => flat A
  | .bid => flat B.reverse

/-- Part of the queue with worse prices. -/
def post (s : Side) (A B : List (Int × Level)) : List Resting :=
  match s with
  | .ask => flat B
  | .bid => flat A.reverse

theorem queueOf_split (s A B p l) : queueOf s (A ++ (p, l) :: B) =
    pre s A B ++ (l.orders.map (toR p) ++ post s A B) := by
  cases s <;> simp [queueOf, pre, post]

theorem queueOf_append (s A B) : queueOf s (A ++ B) = pre s A B ++ post s A B := by
  cases s <;> simp [queueOf, pre, post]

theorem pre_better {s A B p} (hA : ∀ e ∈ A, e.1 < p) (hB : ∀ e ∈ B, p < e.1) :
    ∀ x ∈ pre s A B, better (bside s) x.price p := by
  intro x hx
  cases s
  · obtain ⟨e, he, hp, _⟩ := mem_flat.1 hx
    simp only [bside, better, hp]; exact hA e he
  · obtain ⟨e, he, hp, _⟩ := mem_flat.1 hx
    simp only [bside, better, hp]; exact hB e (by simpa using he)

theorem post_worse {s A B p} (hA : ∀ e ∈ A, e.1 < p) (hB : ∀ e ∈ B, p < e.1) :
    ∀ x ∈ post s A B, better (bside s) p x.price := by
  intro x hx
  cases s
  · obtain ⟨e, he, hp, _⟩ := mem_flat.1 hx
    simp only [bside, better, hp]; exact hB e he
  · obtain ⟨e, he, hp, _⟩ := mem_flat.1 hx
    simp only [bside, better, hp]; exact hA e (by simpa using he)

theorem better_irrefl (s p) : ¬ better s p p := by cases s <;> simp [better]
theorem better_asymm {s p q} (h : better s p q) : ¬ better s q p := by
  cases s <;> simp [better] at * <;> omega
theorem better_trans {s p q r} (h : better s p q) (h' : better s q r) : better s p r := by
  cases s <;> simp [better] at * <;> omega
theorem better_ne {s p q} (h : better s p q) : p ≠ q := by
  cases s <;> simp [better] at * <;> omega

/-! ### Spec operations on appended queues -/

theorem rest_append {s o X Y} (hX : ∀ x ∈ X, ¬ better s o.price x.price)
    (hY : ∀ y ∈ Y, better s o.price y.price) : rest s o (X ++ Y) = X ++ o :: Y := by
  induction X with
  | nil =>
    cases Y with
    | nil => rfl
    | cons y Y => simp [rest, hY y (by simp)]
  | cons x X ih =>
    simp only [List.cons_append, rest, if_neg (hX x (by simp))]
    rw [ih (fun x hx => hX x (by simp [hx]))]

theorem cancel_append (id X Y) : cancel id (X ++ Y) = cancel id X ++ cancel id Y := by
  simp [cancel]

theorem cancel_self {id l} (h : ∀ o ∈ l, o.id ≠ id) : cancel id l = l := by
  rw [cancel, List.filter_eq_self]; intro o ho; simpa using h o ho

theorem setQty_append (id q X Y) : setQty id q (X ++ Y) = setQty id q X ++ setQty id q Y := by
  simp [setQty]

theorem setQty_self {id q l} (h : ∀ o ∈ l, o.id ≠ id) : setQty id q l = l := by
  rw [setQty]
  conv_rhs => rw [← List.map_id l]
  apply List.map_congr_left
  intro o ho; simp [h o ho]

/-! ### Best price -/

/-- Price at the head of a priority queue, sentinel if empty. -/
def headPrice (s : Side) (q : List Resting) : Int :=
  match q.head? with
  | none => HalfBook.sentinel s
  | some o => o.price

theorem bestOf_eq {s ls} (h : ∀ e ∈ ls, LevelOK e) :
    HalfBook.bestOf s ls = headPrice s (queueOf s ls) := by
  cases s with
  | ask =>
    cases ls with
    | nil => simp [HalfBook.bestOf, queueOf, headPrice]
    | cons e ls =>
      have := (h e (by simp)).nonempty
      cases ho : e.2.orders with
      | nil => exact absurd ho this
      | cons o os => simp [HalfBook.bestOf, queueOf, ho, headPrice]
  | bid =>
    rcases List.eq_nil_or_concat ls with rfl | ⟨ls, e, rfl⟩
    · simp [HalfBook.bestOf, queueOf, headPrice]
    · have := (h e (by simp)).nonempty
      cases ho : e.2.orders with
      | nil => exact absurd ho this
      | cons o os => simp [HalfBook.bestOf, queueOf, ho, headPrice]

/-- The queue is in priority order. -/
def PrioritySorted (s : BookSide) (q : List Resting) : Prop :=
  q.Pairwise (fun a b => ¬ better s b.price a.price)

theorem flat_pairwise {R : Int → Int → Prop} {ls : List (Int × Level)} (hrefl : ∀ p, R p p)
    (h : ls.Pairwise (fun a b => R a.1 b.1)) :
    (flat ls).Pairwise (fun a b => R a.price b.price) := by
  induction ls with
  | nil => simp
  | cons e ls ih =>
    rw [List.pairwise_cons] at h
    rw [flat_cons, List.pairwise_append]
    refine ⟨?_, ih h.2, ?_⟩
    · rw [List.pairwise_map]
      exact List.pairwise_of_forall (fun _ _ => hrefl _)
    · intro a ha b hb
      obtain ⟨x, _, rfl⟩ := List.mem_map.1 ha
      obtain ⟨e', he', hp, _⟩ := mem_flat.1 hb
      rw [hp]; exact h.1 e' he'

theorem queueOf_sorted {s ls} (h : Sorted ls) : PrioritySorted (bside s) (queueOf s ls) := by
  cases s
  · apply flat_pairwise (R := fun a b => ¬ better .sell b a) (fun p => better_irrefl _ p)
    exact h.imp (fun hab => by simp [better]; omega)
  · apply flat_pairwise (R := fun a b => ¬ better .buy b a) (fun p => better_irrefl _ p)
    rw [List.pairwise_reverse]
    exact List.Pairwise.imp (fun hab => by simp [better]; omega) h

theorem queueOf_isEmpty {s ls} (h : ∀ e ∈ ls, LevelOK e) : queueOf s ls = [] ↔ ls = [] := by
  constructor
  · intro hq
    cases ls with
    | nil => rfl
    | cons e ls =>
      have := (h e (by simp)).nonempty
      cases ho : e.2.orders with
      | nil => exact absurd ho this
      | cons o os =>
        have : toR e.1 o ∈ queueOf s (e :: ls) := by
          rw [mem_queueOf]; simp [ho]
        rw [hq] at this; simp at this
  · rintro rfl; cases s <;> simp [queueOf]

/-! ### Looking up ids -/

theorem nodup_id_inj {q : List Resting} (h : (q.map (·.id)).Nodup) {a b} (ha : a ∈ q) (hb : b ∈ q)
    (he : a.id = b.id) : a = b := by
  induction q with
  | nil => simp at ha
  | cons x q ih =>
    simp only [List.map_cons, List.nodup_cons] at h
    rcases List.mem_cons.1 ha with ha' | ha'
    · rcases List.mem_cons.1 hb with hb' | hb'
      · rw [ha', hb']
      · subst ha'; exact absurd (List.mem_map.2 ⟨b, hb', he.symm⟩) h.1
    · rcases List.mem_cons.1 hb with hb' | hb'
      · subst hb'; exact absurd (List.mem_map.2 ⟨a, ha', he⟩) h.1
      · exact ih h.2 ha' hb'

end Verif.TE
