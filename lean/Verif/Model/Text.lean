import Verif.Model.Types
/-
Conversion between text and binary values.
Models src/utils.cpp:280-368, 761-866, 1185-1209 and src/bin_xml_types.cpp:472-656, 700-1081 (value by value).
-/
namespace BX
open XBT

/-! ### libc printing (`snprintf` conversions used by the repository) -/

/-- decimal digit character of `n < 10` -/
def digChar (n : Nat) : Char := Char.ofNat (48 + n)

/-- `%u` / the digits of `%d` -/
def dec (n : Nat) : CStr := if n < 10 then [digChar n] else dec (n / 10) ++ [digChar (n % 10)]
termination_by n
decreasing_by omega

/-- `%d` -/
def printInt (v : Int) : CStr := if v < 0 then '-' :: dec v.natAbs else dec v.natAbs

/-- `%0kd` for a non-negative number -/
def padDec (k n : Nat) : CStr := List.replicate (k - (dec n).length) '0' ++ dec n

/-! ### scanners -/

/-- `while (isdigit(*p1)) x = x*10 + (*(p1++) - '0');` in a signed integer type with maximum `lim`;
exceeding it is undefined behaviour. utils.cpp:289-291, 327-329. -/
def scanDigits (lim : Nat) : Nat → CStr → Out (Nat × CStr)
  | x, [] => .ok (x, [])
  | x, c :: cs =>
    if isDig c then
      if x * 10 + digVal c ≤ lim then scanDigits lim (x * 10 + digVal c) cs else .ub
    else .ok (x, c :: cs)

/-- `ScanInt` (lim = INT_MAX), utils.cpp:280-296, and `ScanInt64` (lim = INT64_MAX), utils.cpp:318-334.
Returns the value and the advanced cursor. -/
def scanSigned (lim : Nat) (p : CStr) : Out (Int × CStr) :=
  let p := skipSpaces p
  let neg := peek p == '-'
  let p1 := if neg then p.tail else p
  if isDig (peek p1) then
    (scanDigits lim 0 p1).bind fun (x, r) => .ok (if neg then -(x : Int) else (x : Int), r)
  else .fail

def scanInt (p : CStr) : Out (Int × CStr) := scanSigned 2147483647 p
def scanInt64 (p : CStr) : Out (Int × CStr) := scanSigned 9223372036854775807 p

/-- `while (isdigit(*p1)) x = x*10 + …` in `uint64_t` (wraps), utils.cpp:361-362. -/
def scanDigitsU : Nat → CStr → Nat × CStr
  | x, [] => (x, [])
  | x, c :: cs => if isDig c then scanDigitsU ((x * 10 + digVal c) % 2 ^ 64) cs else (x, c :: cs)

/-- value of a hexadecimal digit, utils.cpp:348-353, 771-787 -/
def hexVal (c : Char) : Option Nat :=
  let n := c.toNat
  if '0'.toNat ≤ n ∧ n ≤ '9'.toNat then some (n - 48)
  else if 'a'.toNat ≤ n ∧ n ≤ 'f'.toNat then some (n - 97 + 10)
  else if 'A'.toNat ≤ n ∧ n ≤ 'F'.toNat then some (n - 65 + 10)
  else none

/-- hexadecimal loop of `ScanUInt64`, utils.cpp:346-355 -/
def scanHexU : Nat → CStr → Nat × CStr
  | x, [] => (x, [])
  | x, c :: cs =>
    match hexVal c with
    | some d => scanHexU ((x * 16 + d) % 2 ^ 64) cs
    | none => (x, c :: cs)

/-- `ScanUInt64`, utils.cpp:336-368. -/
def scanUInt64 (p : CStr) : Out (Nat × CStr) :=
  let p := skipSpaces p
  if peek p = '0' ∧ peek p.tail = 'x' then
    let p1 := p.tail.tail
    if (hexVal (peek p1)).isSome then .ok (scanHexU 0 p1) else .fail
  else if isDig (peek p) then .ok (scanDigitsU 0 p) else .fail

/-- `ScanIPv4`, utils.cpp:298-316. `A << 24` for `A ≥ 128` is taken as the two's complement shift (CWG 1457). -/
def scanIPv4 (p : CStr) : Out (Nat × CStr) :=
  (scanInt p).bind fun (a, p) =>
  if ¬(0 ≤ a ∧ a < 256) then .fail else
  if peek p ≠ '.' then .fail else
  (scanInt p.tail).bind fun (b, p) =>
  if ¬(0 ≤ b ∧ b < 256) then .fail else
  if peek p ≠ '.' then .fail else
  (scanInt p.tail).bind fun (c, p) =>
  if ¬(0 ≤ c ∧ c < 256) then .fail else
  if peek p ≠ '.' then .fail else
  (scanInt p.tail).bind fun (d, p) =>
  if ¬(0 ≤ d ∧ d < 256) then .fail else
  .ok (a.toNat * 2 ^ 24 + b.toNat * 2 ^ 16 + c.toNat * 2 ^ 8 + d.toNat, p)

/-- the IPv4 format `"%u.%u.%u.%u"` of `IPv4TO4U`, bin_xml_types.h:25 and bin_xml_types.cpp:911 -/
def printIPv4 (ip : Nat) : CStr :=
  dec (ip / 2 ^ 24) ++ '.' :: dec (ip / 2 ^ 16 % 256) ++ '.' :: dec (ip / 2 ^ 8 % 256) ++ '.' :: dec (ip % 256)

/-- libc `atoi`: optional spaces and sign, then digits; a value outside `int` is undefined (C11 7.22.1). -/
def atoi (p : CStr) : Out Int :=
  let p := skipSpaces p
  let neg := peek p == '-'
  let p1 := if neg || peek p == '+' then p.tail else p
  let x := (p1.takeWhile isDig).foldl (fun x c => x * 10 + digVal c) 0
  let v : Int := if neg then -(x : Int) else x
  if isI32 v then .ok v else .ub

/-- the digit loop of `str2dec`, bin_xml_types.cpp:478-482: `value * 10 + (*src) - '0'` evaluated from the left, so
the intermediate `value*10 + code` must fit `int`. `n` limits the number of digits taken (`none`: no limit). -/
def decDigitsLoop : Option Nat → Nat → CStr → Out (Nat × Nat × CStr)
  | n, v, [] => .ok (v, n.getD 0, [])
  | n, v, c :: cs =>
    if isDig c ∧ n ≠ some 0 then
      if v * 10 + c.toNat ≤ 2147483647 then decDigitsLoop (n.map (· - 1)) (v * 10 + digVal c) cs else .ub
    else .ok (v, n.getD 0, c :: cs)

/-- `while (decimals > 0) { value *= 10; decimals--; }`, bin_xml_types.cpp:493-497 -/
def scale10 : Nat → Nat → Out Nat
  | 0, v => .ok v
  | k+1, v => if v * 10 ≤ 2147483647 then scale10 k (v * 10) else .ub

/-- `str2dec`, bin_xml_types.cpp:472-501. -/
def str2dec (src : CStr) (decimals : Nat) : Out Int :=
  let neg := peek src == '-'
  let src := if neg then src.tail else src
  (decDigitsLoop none 0 src).bind fun (v, _, rest) =>
  (if peek rest = '.' then decDigitsLoop (some decimals) v rest.tail else .ok (v, decimals, rest)).bind
    fun (v, left, _) =>
  (scale10 left v).bind fun v => .ok (if neg then -(v : Int) else (v : Int))

/-- number of decimals of a fixed-point type, bin_xml_types.cpp:519-543 -/
def decimalsOf : XBT → Option Nat
  | INT32_DECI => some 1
  | INT32_CENTI => some 2
  | INT32_MILI => some 3
  | INT32_MICRO => some 6
  | INT32_NANO => some 9
  | _ => none

/-- printing of the fixed-point types, bin_xml_types.cpp:851-895: `"%d.%0kd", V / 10^k, ABS(V) % 10^k`
(`ABS(INT_MIN)` is undefined). -/
def printDecimal (k : Nat) (V : Int) : Out CStr :=
  if V = INT_MIN then .ub
  else .ok (printInt (Int.tdiv V (10 ^ k : Nat)) ++ '.' :: padDec k (V.natAbs % 10 ^ k))

/-- the loop `while (value > 0) { *(--d) = '0'+(value % 10); value /= 10; }`, bin_xml_types.cpp:935-939, 958-962 and
utils.cpp:1197-1201: the characters from `d` on -/
def decLoop (v : Nat) (acc : CStr) : CStr :=
  if v = 0 then acc else decLoop (v / 10) (digChar (v % 10) :: acc)
termination_by v
decreasing_by omega

/-- printing of INT64 in `XBT_ToStringChunk`, bin_xml_types.cpp:914-944 (the returned `len` characters;
`value = -value` for INT64_MIN is undefined). -/
def printInt64Chunk (v : Int) : Out CStr :=
  if v = 0 then .ok ['0']
  else if v = -576460752303423488 then .ok "9223372036854775808".toList
  else if v = INT64_MIN then .ub
  else
    let d := decLoop v.natAbs []
    .ok (if v < 0 then '-' :: d else d)

/-- printing of UINT64, bin_xml_types.cpp:945-966 -/
def printUInt64Chunk (v : Nat) : CStr := if v = 0 then ['0'] else decLoop v []

/-- `Int64ToStr`, utils.cpp:1185-1206 -/
def int64ToStr (v : Int) : Out CStr :=
  if v = INT64_MIN then .ub
  else
    let d := if v = 0 then ['0'] else decLoop v.natAbs []
    .ok (if v < 0 then '-' :: d else d)

/-! ### hexadecimal -/

/-- one step of `ScanHex`: skip one '-' or ' ', utils.cpp:767-768 -/
def skipSep (p : CStr) : CStr :=
  match p with
  | '-' :: r => r
  | ' ' :: r => r
  | p => p

/-- the loop of `ScanHex`, utils.cpp:765-793: at most `n` bytes; returns the bytes written. (`memset` of the whole
destination at line 763 is modelled by `scanHex`.) -/
def scanHexLoop : Nat → CStr → List UInt8
  | 0, _ => []
  | n+1, p =>
    match skipSep p with
    | a :: b :: r =>
      match hexVal a, hexVal b with
      | some x, some y => UInt8.ofNat (x * 16 + y) :: scanHexLoop n r
      | _, _ => []
    | _ => []

/-- `ScanHex(p,dst,dst_size)`, utils.cpp:761-794: (returned count, new content of the `dst_size` destination bytes). -/
def scanHex (p : CStr) (dstSize : Nat) : Nat × List UInt8 :=
  if p = [] then (0, List.replicate dstSize 0)
  else
    let bs := scanHexLoop dstSize p
    (bs.length, bs ++ List.replicate (dstSize - bs.length) 0)

/-- `HEX[n]`, utils.cpp (`"0123456789abcdef"`) -/
def hexChar (n : Nat) : Char := if n < 10 then Char.ofNat (48 + n) else Char.ofNat (97 + (n - 10))

/-- `Hex2Str`, utils.cpp:796-807 -/
def hex2Str : List UInt8 → CStr
  | [] => []
  | b :: bs => hexChar (b.toNat / 16) :: hexChar (b.toNat % 16) :: hex2Str bs

/-- `GUID2Str`, utils.cpp:824-866: 8-4-4-4-12 -/
def guid2Str (g : List UInt8) : CStr :=
  let h := hex2Str g
  h.take 8 ++ '-' :: (h.drop 8).take 4 ++ '-' :: (h.drop 12).take 4 ++ '-' :: (h.drop 16).take 4 ++ '-' :: (h.drop 20).take 12

end BX
