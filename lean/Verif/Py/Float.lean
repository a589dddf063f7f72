import Mathlib.Algebra.Order.Field.Rat
import Verif.Py.Basic

/-!
# Floats with special values

`Fl` is a float without rounding: a finite value, NaN or an infinity.
-/

namespace TFMA

/-- python / numpy float. -/
inductive Fl where
  | nan
  | ninf
  | fin (q : ℚ)
  | pinf
  deriving DecidableEq, Repr

namespace Fl

/-- `a <= b`; every comparison with NaN is false. -/
def le : Fl → Fl → Bool
  | .nan, _ => false
  | _, .nan => false
  | .ninf, _ => true
  | _, .pinf => true
  | .fin a, .fin b => decide (a ≤ b)
  | _, _ => false

/-- `-a`. -/
def neg : Fl → Fl
  | .nan => .nan
  | .ninf => .pinf
  | .pinf => .ninf
  | .fin a => .fin (-a)

/-- `a + b`. -/
def add : Fl → Fl → Fl
  | .nan, _ => .nan
  | _, .nan => .nan
  | .pinf, .ninf => .nan
  | .ninf, .pinf => .nan
  | .pinf, _ => .pinf
  | _, .pinf => .pinf
  | .ninf, _ => .ninf
  | _, .ninf => .ninf
  | .fin a, .fin b => .fin (a + b)

/-- `a - b`. -/
def sub (a b : Fl) : Fl := add a (neg b)

/-- `a * b` (the sign of a zero is not modelled). -/
def mul : Fl → Fl → Fl
  | .nan, _ => .nan
  | _, .nan => .nan
  | .fin a, .fin b => .fin (a * b)
  | .fin a, .pinf => if a = 0 then .nan else if 0 < a then .pinf else .ninf
  | .fin a, .ninf => if a = 0 then .nan else if 0 < a then .ninf else .pinf
  | .pinf, .fin a => if a = 0 then .nan else if 0 < a then .pinf else .ninf
  | .ninf, .fin a => if a = 0 then .nan else if 0 < a then .ninf else .pinf
  | .pinf, .pinf => .pinf
  | .ninf, .ninf => .pinf
  | .pinf, .ninf => .ninf
  | .ninf, .pinf => .ninf

/-- sign: -1, 0, 1 (0 for NaN). -/
def sgn : Fl → Int
  | .nan => 0
  | .ninf => -1
  | .pinf => 1
  | .fin a => if a < 0 then -1 else if a = 0 then 0 else 1

/-- numpy `a / b`; division by zero gives NaN or an infinity (the sign of a zero is not modelled: zero counts
as positive). -/
def div : Fl → Fl → Fl
  | .nan, _ => .nan
  | _, .nan => .nan
  | .fin a, .fin b => if b = 0 then (if a = 0 then .nan else if 0 < a then .pinf else .ninf) else .fin (a / b)
  | .fin _, _ => .fin 0
  | .pinf, .fin b => if b < 0 then .ninf else .pinf
  | .ninf, .fin b => if b < 0 then .pinf else .ninf
  | _, _ => .nan

theorem add_assoc (a b c : Fl) : add (add a b) c = add a (add b c) := by
  cases a <;> cases b <;> cases c <;> simp [add, _root_.add_assoc]

theorem add_comm (a b : Fl) : add a b = add b a := by
  cases a <;> cases b <;> simp [add, _root_.add_comm]

theorem zero_add (a : Fl) : add (.fin 0) a = a := by
  cases a <;> simp [add]

end Fl

/-- `np.isclose(a, b)` for finite values: `abs(a - b) <= atol + rtol * abs(b)` with the default tolerances. -/
def isClose (a b : ℚ) : Bool := decide (|a - b| ≤ 1 / 100000000 + 1 / 100000 * |b|)

end TFMA
