import Verif.Model.Utils
import Verif.Model.Image
import Verif.Model.Value
/-
The scanners of texts. Models src/utils.cpp:253-278 (`EatEnd`, `Scan`), 370-390 (`ScanUInt64Hex`), 715-728 (`SkipLine`, `Go`), 869-882 (`ScanW`), 954-999 (`ScanStrW`, `SkipLineW`) and
1003-1070 (`GetInt`). (`ScanIntW`, `ScanInt64W`, `ScanUInt64W` and `SkipSpacesW`, 884-952, 988-991, are the same statements as `ScanInt`, `ScanInt64`, `ScanUInt64` and `SkipSpaces`.)
-/
namespace BX

/-- `EatEnd`, utils.cpp:253-261: the answer and the text afterwards -/
def eatEnd (p e : CStr) : Bool × CStr :=
  if e.length > p.length then (false, p)
  else if p.drop (p.length - e.length) ≠ e then (false, p)
  else (true, p.take (p.length - e.length))

/-- the loop of `Scan`, utils.cpp:269-275 -/
def scanLoop : CStr → CStr → Option CStr
  | p, [] => some p
  | [], _ :: _ => none
  | c :: p, b :: beg => if c = b then scanLoop p beg else none

/-- `Scan` and `ScanW`, utils.cpp:265-278, 869-882: the answer and the advanced cursor -/
def scan (p beg : CStr) : Bool × CStr :=
  let p := skipSpaces p
  match scanLoop p beg with
  | some r => (true, r)
  | none => (false, p)

/-- `SkipLine` and `SkipLineW`, utils.cpp:715-721, 993-999 -/
def skipLine : CStr → Bool × CStr
  | [] => (false, [])
  | c :: p => if c = '\n' then (true, p) else skipLine p

/-- `Go`, utils.cpp:723-728 -/
def go (separator : Char) : CStr → Bool × CStr
  | [] => (false, [])
  | c :: p => if c = separator then (true, p) else go separator p

/-- `ScanStrW`, utils.cpp:954-986 -/
def scanStrW (p : CStr) (separator : Char) (size : Nat) : ScanStrRes :=
  let p := skipSpaces p
  let (w, r) := scanStrLoop (if separator = ' ' then isSpace else (· == separator)) size p
  { ret := peek w != '\x00', rest := some r.tail, written := w ++ ['\x00'] }

/-- `ScanUInt64Hex`, utils.cpp:370-391 -/
def scanUInt64Hex (p : CStr) : Out (Nat × CStr) :=
  let p := skipSpaces p
  if (hexVal (peek p)).isSome then .ok (scanHexU 0 p) else .fail

/-- `x << 4` for an `int` (C++11 with the resolution of CWG 1457): a negative number and a number that does not fit an `unsigned int` are undefined; the rest is converted to `int` -/
def shl4 (x : Int) : Out Int :=
  if x < 0 ∨ 4294967296 ≤ x * 16 then .ub
  else if x * 16 < 2147483648 then .ok (x * 16)
  else .ok (x * 16 - 4294967296)

/-- an addition of `int`s -/
def addInt (a b : Int) : Out Int := if -2147483648 ≤ a + b ∧ a + b ≤ 2147483647 then .ok (a + b) else .ub

/-- the loop of `GetInt` over hexadecimal digits, utils.cpp:1019-1055: `(x << 4) + *p - '0'`, `(x << 4) + *p - 'A' + 10`, `(x << 4) + *p - 'a' + 10`, from left to right -/
def getHexLoop : Int → CStr → Out Int
  | x, [] => .ok x
  | x, c :: p =>
    let n : Int := c.toNat
    if 48 ≤ n ∧ n ≤ 57 then do
      let a ← shl4 x
      let a ← addInt a n
      let a ← addInt a (-48)
      getHexLoop a p
    else if 65 ≤ n ∧ n ≤ 70 then do
      let a ← shl4 x
      let a ← addInt a n
      let a ← addInt a (-65)
      let a ← addInt a 10
      getHexLoop a p
    else if 97 ≤ n ∧ n ≤ 102 then do
      let a ← shl4 x
      let a ← addInt a n
      let a ← addInt a (-97)
      let a ← addInt a 10
      getHexLoop a p
    else .ok x

/-- `neg ? -x : x`; the negation of the smallest number is undefined -/
def negIf (neg : Bool) (x : Int) : Out Int := if neg then (if x = -2147483648 then .ub else .ok (-x)) else .ok x

/-- `GetInt`, utils.cpp:1003-1069 -/
def getInt : Option CStr → Out Int
  | none => .ok INT_NULL_VALUE
  | some p =>
    let p := skipSpaces p
    let neg := peek p == '-'
    let p := if neg then p.tail else p
    if cAt p 0 = '0' ∧ cAt p 1 = 'x' then
      let p := p.drop 2
      if (hexVal (peek p)).isSome then do
        let x ← getHexLoop 0 p
        negIf neg x
      else .ok INT_NULL_VALUE
    else if isDig (peek p) then do
      let x ← scanDigits 2147483647 0 p
      negIf neg (x.1 : Int)
    else .ok INT_NULL_VALUE

end BX
