import Verif.Model.Base
/-
Specification vocabulary for texts: positional values of digit strings, independent of any scanner or printer.
-/
namespace BX.Spec
open BX

/-- Positional value of a string of decimal digits: the digit in front of `k` others counts `10^k`. -/
def digitsValue : CStr → Nat
  | [] => 0
  | c :: cs => (c.toNat - 48) * 10 ^ cs.length + digitsValue cs

/-- Non-empty string of decimal digits. -/
def Digits (ds : CStr) : Prop := ds ≠ [] ∧ ∀ c ∈ ds, isDig c = true

instance (ds : CStr) : Decidable (Digits ds) := inferInstanceAs (Decidable (_ ∧ _))

/-- White space only. -/
def Spaces (s : CStr) : Prop := ∀ c ∈ s, isSpace c = true
instance (ds : CStr) : Decidable (Spaces ds) := inferInstanceAs (Decidable (∀ _ ∈ _, _))

/-- `rest` does not continue a digit run. -/
def NoDigit (rest : CStr) : Prop := isDig (peek rest) = false
instance (ds : CStr) : Decidable (NoDigit ds) := inferInstanceAs (Decidable (_ = _))

/-- The text of an integer, as a relation: canonical decimal notation (no leading zero, '-' for negatives). -/
def IntText (v : Int) (s : CStr) : Prop :=
  (∃ ds, s = (if v < 0 then '-' :: ds else ds) ∧ Digits ds ∧ digitsValue ds = v.natAbs ∧
    (∀ r, ds = '0' :: r → r = []))

/-- A number as the scanners tolerate it: blanks, digits; a minus sign only in front of zero. -/
def OctetText (a : Nat) (p : CStr) : Prop :=
  ∃ (s : CStr) (neg : Bool) (ds : CStr), Spaces s ∧ Digits ds ∧ p = s ++ (if neg then ['-'] else []) ++ ds ∧
    digitsValue ds = a ∧ (neg = true → a = 0)

end BX.Spec
