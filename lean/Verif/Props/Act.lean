import Verif.Act
/-!
# Lemmas on functions that keep their writes
-/
set_option autoImplicit false
namespace Verif.Props
open Verif

/-! ## Statements -/

theorem seq_eq {σ α β : Type} (a : Act σ α) (k : α → Act σ β) (s : σ) :
    (a >>= k) s = match a s with
      | (s', .ok x) => k x s'
      | (s', .error e) => (s', .error e) := rfl

theorem seq_ok {σ α β : Type} {a : Act σ α} {k : α → Act σ β} {s s' : σ} {x : α} (h : a s = (s', .ok x)) :
    (a >>= k) s = k x s' := by rw [seq_eq, h]

theorem seq_error {σ α β : Type} {a : Act σ α} {k : α → Act σ β} {s s' : σ} {e : Fault} (h : a s = (s', .error e)) :
    (a >>= k) s = (s', .error e) := by rw [seq_eq, h]

theorem seq_expr {σ α β : Type} {r : Res α} {x : α} (h : r = .ok x) (k : α → Act σ β) (s : σ) : (expr r >>= k) s = k x s := by
  rw [h]; rfl

theorem seq_expr_error {σ α β : Type} {r : Res α} {e : Fault} (h : r = .error e) (k : α → Act σ β) (s : σ) :
    (expr r >>= k) s = (s, .error e) := by
  rw [h]; rfl

theorem seq_assign {σ β : Type} (f : σ → σ) (k : Unit → Act σ β) (s : σ) : (assign f >>= k) s = k () (f s) := rfl

theorem seq_look {σ β : Type} (k : σ → Act σ β) (s : σ) : (look >>= k) s = k s s := rfl

/-- The statements do what the function says: the same state and value, or the same fault. -/
def Agree {σ α : Type} (a : Act σ α) (s : σ) (r : Res (α × σ)) : Prop :=
  match r with
  | .ok (x, s') => a s = (s', .ok x)
  | .error e => (a s).2 = .error e

theorem agree_expr {σ α β : Type} {r : Res α} {k : α → Act σ β} {k' : α → Res (β × σ)} {s : σ}
    (h : ∀ x, r = .ok x → Agree (k x) s (k' x)) : Agree (expr r >>= k) s (r >>= k') := by
  rcases r with e | x
  · rfl
  · exact h x rfl

theorem agree_assign {σ β : Type} {f : σ → σ} {k : Unit → Act σ β} {s : σ} {r : Res (β × σ)} (h : Agree (k ()) (f s) r) :
    Agree (assign f >>= k) s r := h

theorem agree_look {σ β : Type} {k : σ → Act σ β} {s : σ} {r : Res (β × σ)} (h : Agree (k s) s r) : Agree (look >>= k) s r := h

theorem agree_seq {σ α β : Type} {a : Act σ α} {k : α → Act σ β} {s : σ} {r : Res (α × σ)} {k' : α × σ → Res (β × σ)}
    (h : Agree a s r) (hk : ∀ x s', r = .ok (x, s') → Agree (k x) s' (k' (x, s'))) : Agree (a >>= k) s (r >>= k') := by
  rcases r with e | ⟨x, s'⟩
  · rcases ha : a s with ⟨s1, e1⟩
    unfold Agree at h
    rw [ha] at h
    obtain rfl : e1 = .error e := h
    show ((a >>= k) s).2 = _
    rw [seq_error ha]
  · have ha : a s = (s', .ok x) := h
    have := hk x s' rfl
    unfold Agree at this ⊢
    simp only [Res.bind_ok]
    rw [seq_ok ha]
    exact this

theorem agree_done {σ : Type} (f : σ → σ) (s : σ) : Agree (assign f) s (.ok ((), f s)) := rfl

theorem agree_on {σ τ α : Type} {get : σ → τ} {put : τ → σ → σ} {a : Act τ α} {s : σ} {r : Res (α × τ)} (h : Agree a (get s) r) :
    Agree (a.on get put) s (r >>= fun y => .ok (y.1, put y.2 s)) := by
  rcases r with e | ⟨x, t⟩
  · have h' : (a (get s)).2 = .error e := h
    show (a.on get put s).2 = _
    unfold Act.on
    rcases ha : a (get s) with ⟨t, r⟩
    rw [ha] at h'
    exact h'
  · have h' : a (get s) = (t, .ok x) := h
    show a.on get put s = _
    unfold Act.on
    rw [h']

theorem agree_ok {σ α β : Type} {a : Act σ α} {k : α → Act σ β} {s s' : σ} {x : α} {r : Res (β × σ)} (ha : a s = (s', .ok x))
    (h : Agree (k x) s' r) : Agree (a >>= k) s r := by
  unfold Agree at h ⊢
  rw [seq_ok ha]
  exact h

theorem agree_error {σ α β : Type} {a : Act σ α} {k : α → Act σ β} {s : σ} {e : Fault} (h : Agree a s (.error e)) :
    Agree (a >>= k) s (.error e) := by
  rcases ha : a s with ⟨s1, e1⟩
  unfold Agree at h
  rw [ha] at h
  obtain rfl : e1 = .error e := h
  show ((a >>= k) s).2 = _
  rw [seq_error ha]

theorem agree_then {σ β : Type} {a : Act σ Unit} {k : Unit → Act σ β} {s : σ} {ig : Res σ} {K : σ → Res (β × σ)}
    (h : Agree a s (ig >>= fun g => .ok ((), g))) (hk : ∀ g', Agree (k ()) g' (K g')) : Agree (a >>= k) s (ig >>= K) := by
  rcases ig with e | g'
  · exact agree_error h
  · exact agree_ok h (hk g')

/-- A part of the data that the statements never change, whatever comes out. -/
def Untouched {σ α β : Type} (I : σ → β) (a : Act σ α) : Prop := ∀ s, I (a s).1 = I s

theorem untouched_seq {σ α β γ : Type} {I : σ → γ} {a : Act σ α} {k : α → Act σ β} (ha : Untouched I a) (hk : ∀ x, Untouched I (k x)) :
    Untouched I (a >>= k) := by
  intro s
  rw [seq_eq]
  have := ha s
  rcases h : a s with ⟨s', e | x⟩
  · rw [h] at this; exact this
  · rw [h] at this; exact (hk x s').trans this

theorem untouched_expr {σ α γ : Type} {I : σ → γ} (r : Res α) : Untouched I (expr r) := fun _ => rfl

theorem untouched_look {σ γ : Type} {I : σ → γ} : Untouched I (look : Act σ σ) := fun _ => rfl

theorem untouched_assign {σ γ : Type} {I : σ → γ} {f : σ → σ} (h : ∀ s, I (f s) = I s) : Untouched I (assign f) := h

theorem untouched_on {σ τ α γ : Type} {I : σ → γ} {get : σ → τ} {put : τ → σ → σ} {a : Act τ α}
    (h : ∀ s, I (put (a (get s)).1 s) = I s) : Untouched I (a.on get put) := h

end Verif.Props
