/-
Common vocabulary of the model: the Python exceptions that the modelled code can raise.
-/
namespace Glimpse

/-- Python exceptions raised (explicitly, or by numpy / the interpreter) in the modelled code.
The message is not modelled; the class is. -/
inductive Err where
  | valueError
  | indexError
  | typeError
  | keyError
  | attributeError
  | zeroDivision
  | unboundLocal
  | other
deriving DecidableEq, Repr

/-- Whether a modelled call returned normally. -/
def Returns {ε α : Type _} (r : Except ε α) : Prop := ∃ a, r = .ok a

/-- Whether a modelled call raised. -/
def Raises {ε α : Type _} (r : Except ε α) : Prop := ∃ e, r = .error e

end Glimpse
