import Mathlib.Analysis.SpecialFunctions.Log.Basic
import Verif.Py.Float

/-!
# Floats with special values whose finite values are real

As `Fl`, for the computations that need logarithms.
-/

namespace TFMA

/-- python / numpy float. -/
inductive Rl where
  | nan
  | ninf
  | fin (x : ℝ)
  | pinf

namespace Rl

/-- `-a`. -/
def neg : Rl → Rl
  | .nan => .nan
  | .ninf => .pinf
  | .pinf => .ninf
  | .fin a => .fin (-a)

/-- `a + b`. -/
noncomputable def add : Rl → Rl → Rl
  | .nan, _ => .nan
  | _, .nan => .nan
  | .pinf, .ninf => .nan
  | .ninf, .pinf => .nan
  | .pinf, _ => .pinf
  | _, .pinf => .pinf
  | .ninf, _ => .ninf
  | _, .ninf => .ninf
  | .fin a, .fin b => .fin (a + b)

/-- `a - b`. -/
noncomputable def sub (a b : Rl) : Rl := add a (neg b)

/-- An infinity with the sign of the finite factor, NaN for zero. -/
noncomputable def times (a : ℝ) (up : Bool) : Rl :=
  if a = 0 then .nan else if (0 < a) = (up = true) then .pinf else .ninf

/-- `a * b`. -/
noncomputable def mul : Rl → Rl → Rl
  | .nan, _ => .nan
  | _, .nan => .nan
  | .fin a, .fin b => .fin (a * b)
  | .fin a, .pinf => times a true
  | .fin a, .ninf => times a false
  | .pinf, .fin a => times a true
  | .ninf, .fin a => times a false
  | .pinf, .pinf => .pinf
  | .ninf, .ninf => .pinf
  | .pinf, .ninf => .ninf
  | .ninf, .pinf => .ninf

/-- numpy `a / b`; division by zero gives NaN or an infinity (zero counts as positive). -/
noncomputable def div : Rl → Rl → Rl
  | .nan, _ => .nan
  | _, .nan => .nan
  | .fin a, .fin b => if b = 0 then (if a = 0 then .nan else if 0 < a then .pinf else .ninf) else .fin (a / b)
  | .fin _, _ => .fin 0
  | .pinf, .fin b => if b < 0 then .ninf else .pinf
  | .ninf, .fin b => if b < 0 then .pinf else .ninf
  | _, _ => .nan

/-- `np.nansum`: NaN entries count as zero. -/
noncomputable def nansum : List Rl → Rl
  | [] => .fin 0
  | .nan :: l => nansum l
  | x :: l => add x (nansum l)

end Rl
end TFMA
