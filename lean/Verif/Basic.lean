/-!
# Common outcome type

C++ code can return a value, run into undefined behaviour, or fail to terminate (unbounded recursion).
The model keeps the three apart: `ub` and `diverge` are never merged with a normal value.
-/

namespace Verif

/-- Outcome of running a piece of modelled C++ code. `diverge` is what a fuel-bounded recursion returns when
the fuel runs out; "the code terminates" is stated as "for all sufficiently large fuel the outcome is not
`diverge`", "the code does not terminate" as "for every fuel the outcome is `diverge`". -/
inductive Outcome (α : Type) where
  | ok (a : α)
  | ub
  | diverge
  deriving Repr, DecidableEq

namespace Outcome

/-- Sequencing: undefined behaviour and divergence propagate. -/
def bind {α β : Type} (x : Outcome α) (f : α → Outcome β) : Outcome β :=
  match x with
  | ok a => f a
  | ub => ub
  | diverge => diverge

instance : Monad Outcome where
  pure := ok
  bind := bind

@[simp] theorem bind_ok {α β : Type} (a : α) (f : α → Outcome β) : (ok a >>= f) = f a := rfl
@[simp] theorem bind_ub {α β : Type} (f : α → Outcome β) : ((ub : Outcome α) >>= f) = ub := rfl
@[simp] theorem bind_diverge {α β : Type} (f : α → Outcome β) :
    ((diverge : Outcome α) >>= f) = diverge := rfl
@[simp] theorem pure_eq {α : Type} (a : α) : (pure a : Outcome α) = ok a := rfl

instance : LawfulMonad Outcome := LawfulMonad.mk'
  (id_map := fun x => by cases x <;> rfl)
  (pure_bind := fun _ _ => rfl)
  (bind_assoc := fun x _ _ => by cases x <;> rfl)

/-- Vector indexing `v[i]`: out of range is undefined behaviour. -/
def index {α : Type} (l : List α) (i : Nat) : Outcome α :=
  match l[i]? with
  | some a => ok a
  | none => ub

theorem index_eq_ok {α : Type} {l : List α} {i : Nat} {a : α} : index l i = ok a ↔ l[i]? = some a := by
  unfold index; split <;> simp_all

end Outcome
end Verif
