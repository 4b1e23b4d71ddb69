import Verif.Model.Base
/-
What hexadecimal and base64 texts mean (RFC 4648), independent of the code.
-/
namespace BX.Spec

/-- `c` is a hexadecimal digit of value `v`, in either case. -/
def HexDigit (v : Nat) (c : Char) : Prop :=
  "0123456789abcdef".toList[v]? = some c ∨ "0123456789ABCDEF".toList[v]? = some c

instance (v : Nat) (c : Char) : Decidable (HexDigit v c) := inferInstanceAs (Decidable (_ ∨ _))

/-- The text denotes the bytes: two digits per byte, each pair optionally preceded by one `-` or blank. -/
inductive HexText : List UInt8 → List Char → Prop where
  | nil : HexText [] []
  | cons (sep : List Char) (hi lo : Nat) (a b : Char) (bs : List UInt8) (t : List Char) :
      (sep = [] ∨ sep = ['-'] ∨ sep = [' ']) → HexDigit hi a → HexDigit lo b → HexText bs t →
      HexText (UInt8.ofNat (16 * hi + lo) :: bs) (sep ++ a :: b :: t)

/-- The text starts with no further pair of digits. -/
def NoHexPair (t : List Char) : Prop :=
  ∀ (sep : List Char) (hi lo : Nat) (a b : Char) (r : List Char), (sep = [] ∨ sep = ['-'] ∨ sep = [' ']) →
    HexDigit hi a → HexDigit lo b → t ≠ sep ++ a :: b :: r

/-- Digit `v` of the base64 alphabet. -/
def digit64 (v : Nat) : Char := "ABCDEFGHIJKLMNOPQRSTUVWXYZabcdefghijklmnopqrstuvwxyz0123456789+/".toList.getD v '?'

/-- The four base64 digits of a 24-bit group. -/
def group64 (n : Nat) : List Char :=
  [digit64 (n / 64 ^ 3 % 64), digit64 (n / 64 ^ 2 % 64), digit64 (n / 64 % 64), digit64 (n % 64)]

/-- RFC 4648 base64 text of a byte string: 24-bit groups, the last one padded with `=`. -/
def text64 : List UInt8 → List Char
  | [] => []
  | [a] => (group64 (a.toNat * 65536)).take 2 ++ ['=', '=']
  | [a, b] => (group64 (a.toNat * 65536 + b.toNat * 256)).take 3 ++ ['=']
  | a :: b :: c :: r => group64 (a.toNat * 65536 + b.toNat * 256 + c.toNat) ++ text64 r

end BX.Spec
