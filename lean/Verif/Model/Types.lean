import Verif.Model.Base
/-
Type codes, type detection and type joining.
Models include/binary_xml/bin_xml_types.h:27-73 and src/bin_xml_types.cpp:49-256, 309-437, 658-698, 1148-1214.
-/
namespace BX

/-- `enum XML_Binary_Type`, bin_xml_types.h:27-65 (constructors in the order of their codes 0..25). -/
inductive XBT where
  | NULL | VARIANT | STRING | BLOB | INT32 | INT64 | FLOAT | DOUBLE | HEX | GUID | SHA1
  | UNIX_TIME | IPv4 | IPv6 | UNKNOWN | UINT64 | UNIX_TIME64_MSEC | UINT32 | UNIX_DATE
  | INT32_DECI | INT32_CENTI | INT32_MILI | INT32_MICRO | INT32_NANO | BLOB_STRING | LAST
deriving DecidableEq, Repr

namespace XBT
/-- All type codes in numeric order. -/
def all : List XBT :=
  [NULL, VARIANT, STRING, BLOB, INT32, INT64, FLOAT, DOUBLE, HEX, GUID, SHA1, UNIX_TIME, IPv4, IPv6, UNKNOWN,
   UINT64, UNIX_TIME64_MSEC, UINT32, UNIX_DATE, INT32_DECI, INT32_CENTI, INT32_MILI, INT32_MICRO, INT32_NANO,
   BLOB_STRING, LAST]
theorem mem_all (t : XBT) : t ∈ all := by cases t <;> decide

/-- The stored byte of a type code, bin_xml_types.h:27-54. -/
def code : XBT → UInt8
  | NULL => 0 | VARIANT => 1 | STRING => 2 | BLOB => 3 | INT32 => 4 | INT64 => 5 | FLOAT => 6 | DOUBLE => 7
  | HEX => 8 | GUID => 9 | SHA1 => 10 | UNIX_TIME => 11 | IPv4 => 12 | IPv6 => 13 | UNKNOWN => 14 | UINT64 => 15
  | UNIX_TIME64_MSEC => 16 | UINT32 => 17 | UNIX_DATE => 18 | INT32_DECI => 19 | INT32_CENTI => 20
  | INT32_MILI => 21 | INT32_MICRO => 22 | INT32_NANO => 23 | BLOB_STRING => 24 | LAST => 25

/-- Reading a stored type byte back (bytes above 25 are no type code). -/
def ofCode (b : UInt8) : Option XBT := all[b.toNat]?

theorem ofCode_code (t : XBT) : ofCode t.code = some t := by cases t <;> decide

/-- `XBT_IS_INT32`, bin_xml_types.h:70. -/
def isINT32 (t : XBT) : Bool :=
  t == INT32 || t == INT32_DECI || t == INT32_CENTI || t == INT32_MILI || t == INT32_MICRO || t == INT32_NANO
/-- `XBT_IS_4`, bin_xml_types.h:67. -/
def is4 (t : XBT) : Bool :=
  isINT32 t || t == FLOAT || t == UNIX_TIME || t == IPv4 || t == UINT32
/-- `XBT_IS_8`, bin_xml_types.h:68. -/
def is8 (t : XBT) : Bool := t == INT64 || t == DOUBLE || t == UNIX_TIME64_MSEC || t == UINT64
/-- `XBT_IS_VARSIZE`, bin_xml_types.h:72. -/
def isVarsize (t : XBT) : Bool := t == BLOB || t == HEX || t == BLOB_STRING
/-- `XBT_FIXEDSIZE`, bin_xml_types.h:73. -/
def fixedSize (t : XBT) : Int :=
  if t == NULL then 0
  else if t == INT64 || t == DOUBLE || t == UINT64 || t == UNIX_TIME64_MSEC then 8
  else if t == GUID then 16
  else if t == SHA1 then 20
  else if t == IPv6 then 16
  else -1
end XBT

open XBT

/-- Counters of the scanning loop of `XBT_Detect`, bin_xml_types.cpp:53-70.
`len` of the source is never changed (stays 0), so `len == exponent_pos+1` is `exponent_pos = -1`,
i.e. "no 'E' seen so far"; the model keeps `exponentSeen` for that. -/
structure Det where
  digits : Nat := 0
  decimals : Nat := 0
  hexadigits : Nat := 0
  negative : Nat := 0
  dots : Nat := 0
  dashes : Nat := 0
  colons : Nat := 0
  others : Nat := 0
  exponent : Nat := 0
  spaces : Nat := 0
  whites : Nat := 0
  exponentSeen : Bool := false
  overflow64 : Bool := false
  X : Nat := 0
  X0 : Nat := 0
  EX : Nat := 0
deriving DecidableEq, Repr

/-- One iteration of the scanning loop, bin_xml_types.cpp:79-121 (`uint64_t` arithmetic wraps). -/
def Det.step (s : Det) (c : Char) : Det :=
  if c = '-' then
    { s with negative := if s.exponentSeen then s.negative else s.negative + 1, dashes := s.dashes + 1 }
  else if isDig c then
    let X := (s.X * 10 + digVal c) % 2 ^ 64
    { s with
      X := X
      overflow64 := if X < s.X0 then true else s.overflow64
      X0 := X
      EX := (s.EX * 10 + digVal c) % 2 ^ 64
      digits := s.digits + 1
      decimals := if s.dots > 0 then s.decimals + 1 else s.decimals }
  else if 'a'.toNat ≤ c.toNat ∧ c.toNat ≤ 'f'.toNat then { s with hexadigits := s.hexadigits + 1 }
  else if 'A'.toNat ≤ c.toNat ∧ c.toNat ≤ 'F'.toNat then
    if c = 'E' then
      { s with hexadigits := s.hexadigits + 1, exponentSeen := true, EX := 0, exponent := s.exponent + 1 }
    else { s with hexadigits := s.hexadigits + 1 }
  else if c = '.' then { s with dots := s.dots + 1 }
  else if c = ':' then { s with colons := s.colons + 1 }
  else if c = ' ' then { s with spaces := s.spaces + 1, whites := s.whites + 1 }
  else if c = '\n' ∨ c = '\t' ∨ c = '\r' then { s with whites := s.whites + 1 }
  else { s with others := s.others + 1 }

/-- The decision part of `XBT_Detect`, bin_xml_types.cpp:140-200. `value` is the text after the optional `0x`
prefix, `strLen` the length before removing it. `value[23]` may be read one byte behind the terminator when the text
has a `0x` prefix; whatever is there cannot change the result (no '.' is left for `value[19]`), the model reads NUL. -/
def Det.decide (d : Det) (hexPrefix : Bool) (strLen : Nat) (value : CStr) : XBT :=
  if hexPrefix = false ∧ strLen ≥ 7 ∧ strLen ≤ 15 ∧ d.digits ≥ 4 ∧ d.hexadigits = 0 ∧ d.negative = 0 ∧ d.dots = 3
      ∧ d.dashes = 0 ∧ d.colons = 0 ∧ d.others = 0 ∧ d.exponent = 0 ∧ d.spaces = 0 ∧ d.whites = 0
      ∧ d.exponentSeen = false ∧ d.overflow64 = false then IPv4
  else if strLen = 10 ∧ d.digits = 8 ∧ cAt value 4 = '-' ∧ cAt value 7 = '-' then UNIX_DATE
  else if d.digits > 0 ∧ d.digits ≤ 19 ∧ d.hexadigits = 0 ∧ d.negative ≤ 1 ∧ d.dots = 0 ∧ d.dashes ≤ 1
      ∧ d.colons = 0 ∧ d.others = 0 ∧ d.exponent = 0 ∧ d.spaces = 0 ∧ d.whites = 0 ∧ d.overflow64 = false then
    if d.negative = 0 ∧ d.X ≤ 0x7fffffff then INT32
    else if d.negative = 1 ∧ d.X ≤ 0x80000000 then INT32
    else if d.negative = 0 ∧ d.X / 2 ^ 32 = 0 then UINT32
    else if d.negative = 0 ∧ d.X > 0x7fffffffffffffff then UINT64
    else INT64
  else
    let dec := d.digits > 0 ∧ d.dots = 1 ∧ d.hexadigits = 0 ∧ d.dashes ≤ 1 ∧ d.colons = 0 ∧ d.others = 0
      ∧ d.exponent = 0 ∧ d.overflow64 = false
      ∧ ((d.negative = 0 ∧ d.X ≤ 0x7fffffff) ∨ (d.negative = 1 ∧ d.X ≤ 0x80000000))
    if dec ∧ d.decimals = 1 then INT32_DECI
    else if dec ∧ d.decimals = 2 then INT32_CENTI
    else if dec ∧ d.decimals = 3 then INT32_MILI
    else if dec ∧ d.decimals ≤ 6 then INT32_MICRO
    else if dec ∧ d.decimals ≤ 9 then INT32_NANO
    else if d.digits > 0 ∧ d.hexadigits = d.exponent ∧ d.negative ≤ 2 ∧ d.dots ≤ 1 ∧ d.dashes ≤ 2 ∧ d.colons = 0
        ∧ d.others = 0 ∧ d.exponent ≤ 1 then
      if d.EX > 38 ∨ d.digits ≥ 8 then DOUBLE else FLOAT
    else if d.digits + d.hexadigits = 40 ∧ d.negative = 0 ∧ d.dots = 0 ∧ d.dashes = 0 ∧ d.colons = 0 ∧ d.others = 0 then
      SHA1
    else if hexPrefix = false ∧ strLen = 36 ∧ d.digits + d.hexadigits = 32 ∧ d.decimals = 0 ∧ d.dots = 0 ∧ d.dashes = 4
        ∧ d.colons = 0 ∧ d.others = 0 ∧ d.exponent = 0 ∧ d.spaces = 0 ∧ d.whites = 0 ∧ d.exponentSeen = false then GUID
    else if strLen = 19 ∧ d.digits = 14 ∧ d.spaces = 1 ∧ d.negative = 2 ∧ d.colons = 2
        ∧ cAt value 4 = '-' ∧ cAt value 7 = '-' ∧ cAt value 13 = ':' ∧ cAt value 16 = ':' then UNIX_TIME
    else if strLen = 23 ∧ d.digits = 17 ∧ d.spaces = 1 ∧ d.negative = 2 ∧ d.colons = 2
        ∧ cAt value 4 = '-' ∧ cAt value 7 = '-' ∧ cAt value 13 = ':' ∧ cAt value 16 = ':' ∧ cAt value 19 = '.' then
      UNIX_TIME64_MSEC
    else if strLen = 24 ∧ d.digits = 17 ∧ d.spaces = 0 ∧ d.negative = 2 ∧ d.colons = 2
        ∧ cAt value 10 = 'T' ∧ cAt value 23 = 'Z'
        ∧ cAt value 4 = '-' ∧ cAt value 7 = '-' ∧ cAt value 13 = ':' ∧ cAt value 16 = ':' ∧ cAt value 19 = '.' then
      UNIX_TIME64_MSEC
    else if d.digits + d.hexadigits > 0 ∧ d.negative = 0 ∧ d.dots = 0 ∧ d.dashes = 0 ∧ d.colons = 0 ∧ d.others = 0 then
      HEX
    else STRING

/-- `XBT_Detect`, bin_xml_types.cpp:49-201 (`none` is a null pointer). -/
def detect (value : CStr) : XBT :=
  match value with
  | [] => NULL
  | '0' :: 'x' :: rest => (rest.foldl Det.step {}).decide true (rest.length + 2) rest
  | _ => (value.foldl Det.step {}).decide false value.length value

/-- `XBT_JoinTypes`, bin_xml_types.cpp:203-249. -/
def joinTypes (A B : XBT) : XBT :=
  if A = BLOB_STRING then A
  else if B = BLOB_STRING then B
  else if A = STRING then A
  else if B = STRING then B
  else if A = VARIANT then A
  else if A = NULL then B
  else if A = LAST then B
  else if A = UNKNOWN then B
  else if B = VARIANT then B
  else if B = NULL then A
  else if B = LAST then A
  else if B = UNKNOWN then A
  else if B = A then B
  else if isINT32 A ∧ isINT32 B then
    if A = INT32_NANO ∨ B = INT32_NANO then INT32_NANO
    else if A = INT32_MICRO ∨ B = INT32_MICRO then INT32_MICRO
    else if A = INT32_MILI ∨ B = INT32_MILI then INT32_MILI
    else if A = INT32_CENTI ∨ B = INT32_CENTI then INT32_CENTI
    else if A = INT32_DECI ∨ B = INT32_DECI then INT32_DECI
    else INT32
  else if (B = INT32 ∨ B = INT64 ∨ B = FLOAT ∨ B = DOUBLE) ∧ (A = INT32 ∨ A = INT64 ∨ A = FLOAT ∨ A = DOUBLE) then
    let flt := B = FLOAT ∨ B = DOUBLE ∨ A = FLOAT ∨ A = DOUBLE
    let big := B = INT64 ∨ B = DOUBLE ∨ A = INT64 ∨ A = DOUBLE
    if flt then (if big then DOUBLE else FLOAT) else (if big then INT64 else INT32)
  else VARIANT

/-- `XBT_Detect2`, bin_xml_types.cpp:251-256. -/
def detect2 (value : CStr) (expected : XBT) : XBT :=
  if expected = VARIANT then expected else joinTypes (detect value) expected

/-- The type a symbol ends with when the creator meets the given value texts one after the other: the first occurrence
stores `XBT_Detect(value)` (bin_xml_creator.cpp:1243), each later one `XBT_Detect2(value, current)` (1213-1217).
A null value pointer is treated by `XBT_Detect` like the empty text. -/
def inferType : List CStr → XBT
  | [] => NULL
  | v :: vs => vs.foldl (fun t w => detect2 w t) (detect v)

/-- The loop `while (size < length) size <<= 1;` of `XBT_GetBLOB_STRING_Size`, bin_xml_types.cpp:319, where doubling
beyond `INT_MAX` is undefined behaviour. `fuel` bounds the number of rounds; 64 is never exhausted (an `int` overflows
after 27 doublings of 16). -/
def doubleUp (len : Nat) : Nat → Nat → Out Nat
  | 0, _ => .ub
  | fuel+1, size =>
    if size < len then
      if size * 2 ≤ 2147483647 then doubleUp len fuel (size * 2) else .ub
    else .ok size

/-- `XBT_GetBLOB_STRING_Size`, bin_xml_types.cpp:309-326. -/
def blobStringSizeC (length : Nat) : Out Nat :=
  let length := length + 1
  if length > 2147483647 then .ub
  else if length ≤ 16 then .ok 16
  else (doubleUp length 64 16).bind fun size =>
    let size75 := size - size / 4
    if size75 ≥ length then .ok size75 else .ok size

/-- Value of `XBT_GetBLOB_STRING_Size` where it is defined (0 where the C++ overflows). -/
def blobStringSize (length : Nat) : Nat :=
  match blobStringSizeC length with
  | .ok s => s
  | _ => 0

/-- `XBT_Size2`, bin_xml_types.cpp:328-398; `-1` is the failed assertion. -/
def size2 (t : XBT) (size : Nat) : Int :=
  match t with
  | NULL | UNKNOWN | LAST => if size = 0 then 0 else -1
  | VARIANT => -1
  | STRING => size + 1
  | BLOB_STRING => 4 + blobStringSize size
  | BLOB | HEX => size + 4
  | INT32 | UINT32 | INT32_DECI | INT32_CENTI | INT32_MILI | INT32_MICRO | INT32_NANO | FLOAT | UNIX_TIME | UNIX_DATE
  | IPv4 => if size = 0 ∨ size = 4 then 4 else -1
  | INT64 | UINT64 | DOUBLE | UNIX_TIME64_MSEC => if size = 0 ∨ size = 8 then 8 else -1
  | GUID | IPv6 => if size = 0 ∨ size = 16 then 16 else -1
  | SHA1 => if size = 0 ∨ size = 20 then 24 else -1

/-- `XBT_Align`, bin_xml_types.cpp:400-437. -/
def xalign (t : XBT) : Nat :=
  match t with
  | NULL | UNKNOWN | LAST | VARIANT | STRING => 0
  | UINT64 | INT64 | DOUBLE | IPv6 | UNIX_TIME64_MSEC => 8
  | _ => 4

/-- `AA(p)`, bin_xml_types.h:14: round an address up to a multiple of 4. -/
def aa (p : Nat) : Nat := p + (4 - p % 4) % 4
/-- `AA8(p)`, bin_xml_types.h:15: round an address up to a multiple of 8. -/
def aa8 (p : Nat) : Nat := p + (8 - p % 8) % 8

/-- `XBT_ConvertableStatus`, bin_xml_types.h:123-128. -/
inductive Conv where | no | loose | yes
deriving DecidableEq, Repr

/-- `XBT_ConvertableType`, bin_xml_types.cpp:1148-1214. -/
def convertable (src dst : XBT) : Conv :=
  if src = dst then .yes
  else match dst with
  | NULL => .loose
  | VARIANT => .no
  | STRING => if src = BLOB ∨ src = HEX then .no else .yes
  | BLOB_STRING | BLOB => .yes
  | INT32 =>
    match src with
    | UINT32 | INT64 | UINT64 | STRING => .no
    | FLOAT | DOUBLE | UNIX_TIME64_MSEC | INT32_DECI | INT32_CENTI | INT32_MILI | INT32_MICRO | INT32_NANO => .loose
    | UNIX_TIME | UNIX_DATE => .yes
    | _ => .no
  | _ => .no

end BX
