import Verif.Spec.Text
/-
What texts of hexadecimal numbers mean; independent of the scanners.
-/
namespace BX.Spec
open BX

/-- a hexadecimal digit with its value -/
def HexChar (c : Char) (d : Nat) : Prop :=
  (48 ≤ c.toNat ∧ c.toNat ≤ 57 ∧ d = c.toNat - 48) ∨ (65 ≤ c.toNat ∧ c.toNat ≤ 70 ∧ d = c.toNat - 55) ∨ (97 ≤ c.toNat ∧ c.toNat ≤ 102 ∧ d = c.toNat - 87)

/-- a run of hexadecimal digits with its positional value -/
inductive HexNum : CStr → Nat → Prop
  | nil : HexNum [] 0
  | cons {c : Char} {d : Nat} {s : CStr} {v : Nat} : HexChar c d → HexNum s v → HexNum (c :: s) (d * 16 ^ s.length + v)

/-- the text does not continue with a hexadecimal digit -/
def NoHex (rest : CStr) : Prop := ∀ c r, rest = c :: r → ¬ ∃ d, HexChar c d

/-- the text starts (after blanks and an optional minus sign) with `0x` and a hexadecimal number -/
def StartsHex (w : CStr) (neg : Bool) (n : Nat) : Prop :=
  ∃ s h rest, Spaces s ∧ HexNum h n ∧ h ≠ [] ∧ NoHex rest ∧ w = s ++ (if neg then ['-'] else []) ++ '0' :: 'x' :: h ++ rest

/-- the text starts (after blanks and an optional minus sign) with a decimal number that is not the beginning of `0x` -/
def StartsDec (w : CStr) (v : Int) : Prop :=
  ∃ (s : CStr) (neg : Bool) (ds rest : CStr), Spaces s ∧ Digits ds ∧ NoDigit rest ∧ w = s ++ (if neg then ['-'] else []) ++ ds ++ rest ∧
    v = (if neg then -(digitsValue ds : Int) else digitsValue ds) ∧ ¬ (ds = ['0'] ∧ rest.head? = some 'x')

end BX.Spec
