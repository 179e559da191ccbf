/-
Foundations of the model: undefined behaviour as an explicit outcome, 32-bit unsigned arithmetic.
-/
namespace Vio

/-- Kinds of undefined behaviour the C++ code can run into. -/
inductive UB where
  /-- dereference of a null `shared_ptr` / raw pointer -/
  | nullDeref
  /-- `front()` / `back()` / `*rbegin()` of an empty container -/
  | emptyContainer
  /-- `operator[]` outside the container, or an Eigen block outside the matrix -/
  | outOfRange
  /-- Eigen expression whose operands have incompatible dynamic sizes -/
  | dimMismatch
  /-- conversion of a floating point value to an integer type that cannot hold it -/
  | badConversion
  /-- use of a variable that was never given a value -/
  | uninitialised
  deriving DecidableEq, Repr

/-- Result of a step of the model: a value, or undefined behaviour. -/
inductive Res (α : Type _) where
  | ok (a : α)
  | ub (u : UB)
  deriving DecidableEq

namespace Res

variable {α β γ : Type _}

/-- Sequencing: undefined behaviour is absorbing. -/
def bind (x : Res α) (f : α → Res β) : Res β :=
  match x with
  | ok a => f a
  | ub u => ub u

instance : Monad Res where
  pure := ok
  bind := bind

/-- The step is free of undefined behaviour. -/
def isOk : Res α → Bool
  | ok _ => true
  | ub _ => false

@[simp] theorem pure_eq (a : α) : (pure a : Res α) = ok a := rfl
@[simp] theorem bind_ok (a : α) (f : α → Res β) : (ok a >>= f) = f a := rfl
@[simp] theorem bind_ub (u : UB) (f : α → Res β) : (ub u >>= f) = ub u := rfl
@[simp] theorem map_ok (a : α) (f : α → β) : (f <$> ok a) = ok (f a) := rfl
@[simp] theorem map_ub (u : UB) (f : α → β) : (f <$> (ub u : Res α)) = ub u := rfl
@[simp] theorem isOk_ok (a : α) : (ok a).isOk = true := rfl
@[simp] theorem isOk_ub (u : UB) : (ub u : Res α).isOk = false := rfl

theorem bind_eq_ok {x : Res α} {f : α → Res β} {b : β} :
    (x >>= f) = ok b ↔ ∃ a, x = ok a ∧ f a = ok b := by
  cases x with
  | ok a => simp
  | ub u => simp

theorem bind_assoc (x : Res α) (f : α → Res β) (g : β → Res γ) :
    ((x >>= f) >>= g) = (x >>= fun a => f a >>= g) := by
  cases x <;> rfl

instance : LawfulMonad Res := LawfulMonad.mk'
  (id_map := fun x => by cases x <;> rfl)
  (pure_bind := fun _ _ => rfl)
  (bind_assoc := fun x f g => bind_assoc x f g)
  (bind_pure_comp := fun f x => by cases x <;> rfl)

/-- A Boolean test on the result of a step that must be free of undefined behaviour; used to evaluate concrete cases. -/
def check (x : Res α) (f : α → Bool) : Bool :=
  match x with
  | ok a => f a
  | ub _ => false

theorem exists_of_check {x : Res α} {f : α → Bool} (h : x.check f = true) : ∃ a, x = ok a ∧ f a = true := by
  cases x with
  | ok a => exact ⟨a, rfl, h⟩
  | ub u => simp [check] at h

theorem exists_of_isOk {x : Res α} (h : x.isOk = true) : ∃ a, x = ok a := by
  cases x with
  | ok a => exact ⟨a, rfl⟩
  | ub u => simp at h

end Res

/-- `operator[]` of `std::vector` / `std::deque`: out of range is undefined behaviour. -/
def idx {α : Type _} (l : List α) (i : Nat) : Res α :=
  match l[i]? with
  | some a => .ok a
  | none => .ub .outOfRange

/-- `front()` of a container. -/
def front {α : Type _} (l : List α) : Res α :=
  match l.head? with
  | some a => .ok a
  | none => .ub .emptyContainer

/-- `back()` of a container. -/
def back {α : Type _} (l : List α) : Res α :=
  match l.getLast? with
  | some a => .ok a
  | none => .ub .emptyContainer

/-- Dereference of a possibly null pointer. -/
def deref {α : Type _} (p : Option α) : Res α :=
  match p with
  | some a => .ok a
  | none => .ub .nullDeref

@[simp] theorem front_cons {α : Type _} (a : α) (l : List α) : front (a :: l) = .ok a := rfl
@[simp] theorem front_nil {α : Type _} : front ([] : List α) = .ub .emptyContainer := rfl
@[simp] theorem back_nil {α : Type _} : back ([] : List α) = .ub .emptyContainer := rfl
@[simp] theorem back_append_singleton {α : Type _} (l : List α) (a : α) : back (l ++ [a]) = .ok a := by
  simp [back]
@[simp] theorem deref_some {α : Type _} (a : α) : deref (some a) = .ok a := rfl
@[simp] theorem deref_none {α : Type _} : deref (none : Option α) = .ub .nullDeref := rfl

/-- Number of values of `uint32_t`. -/
def two32 : Nat := 4294967296

/-- `a + b` in `uint32_t`. -/
def add32 (a b : Nat) : Nat := (a + b) % two32

/-- `a - b` in `uint32_t`, for `b` in range. -/
def sub32 (a b : Nat) : Nat := (a + (two32 - b % two32)) % two32

/-- `a * b` in `uint32_t`. -/
def mul32 (a b : Nat) : Nat := (a * b) % two32

theorem add32_of_lt {a b : Nat} (h : a + b < two32) : add32 a b = a + b := Nat.mod_eq_of_lt h

theorem sub32_of_le {a b : Nat} (hb : b ≤ a) (ha : a < two32) : sub32 a b = a - b := by
  unfold sub32
  unfold two32 at *
  omega

theorem sub32_of_lt {a b : Nat} (hb : a < b) (hb' : b < two32) : sub32 a b = two32 - (b - a) := by
  unfold sub32
  unfold two32 at *
  omega

theorem mul32_of_lt {a b : Nat} (h : a * b < two32) : mul32 a b = a * b := Nat.mod_eq_of_lt h

end Vio
