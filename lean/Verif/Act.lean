import Verif.Basic
/-!
# Functions that keep their writes

The models elsewhere drop what a function has written when it answers an error or panics. Where what is left matters, the function is modelled
statement by statement: as a function from the data to the data afterwards together with the answer.
-/
set_option autoImplicit false
namespace Verif

/-- A Rust function on data behind `&mut`: the data afterwards, and the value, error or panic. -/
def Act (σ α : Type) := σ → σ × Res α

/-- Two statements one after the other; after an error (`?`) or a panic the second is not run. -/
def Act.seq {σ α β : Type} (a : Act σ α) (k : α → Act σ β) : Act σ β := fun s =>
  match a s with
  | (s', .ok x) => k x s'
  | (s', .error e) => (s', .error e)

/-- An expression that writes nothing. -/
def expr {σ α : Type} (r : Res α) : Act σ α := fun s => (s, r)

/-- An assignment. -/
def assign {σ : Type} (f : σ → σ) : Act σ Unit := fun s => (f s, .ok ())

/-- Reading the data. -/
def look {σ : Type} : Act σ σ := fun s => (s, .ok s)

instance {σ : Type} : Monad (Act σ) where
  pure x := fun s => (s, .ok x)
  bind := Act.seq

/-- A function on a part of the data. -/
def Act.on {σ τ α : Type} (get : σ → τ) (put : τ → σ → σ) (a : Act τ α) : Act σ α := fun s =>
  match a (get s) with
  | (t, r) => (put t s, r)

end Verif
