import Verif.Model.Value
/-
The text of a stored value of fixed size: the one chunk `XBT_ToStringChunk` produces for it.
Models src/bin_xml_types.cpp:800-1081 (the branches of the types of fixed size). Strings, BLOB, HEX and BLOB_STRING are
printed chunk by chunk and are modelled in Model/Value.lean.
-/
namespace BX
open XBT

/-- `%kd` for a non-negative number: padded with blanks -/
def padBlank (k n : Nat) : CStr := List.replicate (k - (dec n).length) ' ' ++ dec n

/-- `gmtime_r`'s date of a day counted from 1970-01-01: year, month (1..12), day of month. The C library is not modelled,
so the calendar function is a parameter. -/
abbrev Gm := Int → Nat × Nat × Nat

/-- `snprintf("%04d-%02d-%02d %02d:%02d:%02d",…)` of the second `v`, bin_xml_types.cpp:980-987; the time of day that
`gmtime_r` computes is the remainder by 86400 -/
def timeText (gm : Gm) (v : Nat) : CStr :=
  let (y, m, d) := gm ((v / 86400 : Nat) : Int)
  let t := v % 86400
  padDec 4 y ++ '-' :: (padDec 2 m ++ '-' :: padDec 2 d) ++ ' ' :: (padDec 2 (t / 3600) ++ ':' :: (padDec 2 (t / 60 % 60) ++
    ':' :: padDec 2 (t % 60)))

/-- `snprintf("%04d-%02d-%02d %2d:%02d:%02d.%03d",…)` of the millisecond `v`, bin_xml_types.cpp:1003-1010: the quotient
and remainder by 1000 truncate towards zero, `gmtime_r` rounds down -/
def timeText64 (gm : Gm) (v : Int) : CStr :=
  let tm0 := Int.tdiv v 1000
  let (y, m, d) := gm (tm0 / 86400)
  let t := (tm0 % 86400).toNat
  padDec 4 y ++ '-' :: (padDec 2 m ++ '-' :: padDec 2 d) ++ ' ' :: (padBlank 2 (t / 3600) ++ ':' :: (padDec 2 (t / 60 % 60) ++
    ':' :: (padDec 2 (t % 60) ++ '.' :: padInt 3 (Int.tmod v 1000))))

/-- The characters `XBT_ToStringChunk(type,data,0,dst,dst_size)` returns for the value stored in the bytes `d`,
bin_xml_types.cpp:800-1081. `flt` is `"%f"` of a stored float (not modelled). `fail` is the assertion of the types without
text; a date that cannot be printed gives the empty text (`return 0`, line 998). -/
def chunkText (gm : Gm) (flt : List UInt8 → CStr) (t : XBT) (d : List UInt8) : Out CStr :=
  match t with
  | NULL => .ok []
  | INT32 => .ok (printInt (rdI32 d))
  | INT32_DECI => printDecimal 1 (rdI32 d)
  | INT32_CENTI => printDecimal 2 (rdI32 d)
  | INT32_MILI => printDecimal 3 (rdI32 d)
  | INT32_MICRO => printDecimal 6 (rdI32 d)
  | INT32_NANO => printDecimal 9 (rdI32 d)
  | UINT32 => .ok (dec (rdU32 d))
  | IPv4 => .ok (printIPv4 (rdU32 d))
  | INT64 => printInt64Chunk (rdI64 d)
  | UINT64 => .ok (printUInt64Chunk (rdU64 d))
  | FLOAT => .ok (flt d)
  | UNIX_TIME => .ok (timeText gm (rdU32 d))
  | UNIX_DATE =>
    match unixDate2Str (rdI32 d) with
    | .ok s => .ok s
    | .fail => .ok []
    | .ub => .ub
  | UNIX_TIME64_MSEC => .ok (timeText64 gm (rdI64 d))
  | GUID => .ok (hex2Str (d.take 16))
  | SHA1 => .ok (hex2Str (d.take 20))
  | _ => .fail

end BX
