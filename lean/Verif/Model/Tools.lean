import Verif.Model.Convert
import Verif.Model.Open
import Verif.Model.Stream
/-
The command line tools. Models src/tests/2xb.cpp:12-28, src/tests/2xbw.cpp:12-28, src/tests/xb2xml.cpp:12-66, `XBT_Test`, src/bin_xml_types.cpp:1331-1374, and `XBT2STR`,
include/binary_xml/bin_xml_types.h:75-82.
-/
namespace BX
open XBT

/-- what a call of `2xb` or `2xbw` did: the names that were converted, in order, and the exit code -/
structure ToolRun where
  read : List CStr
  code : Nat
deriving DecidableEq, Repr

/-- the loop of `main`, 2xb.cpp:17-25, 2xbw.cpp:17-25, over the arguments that are left; `first` is `argv[1]`, which is converted whatever the argument is. `test` is the answer of `XBT_Test`,
`make` the answer of a conversion (`Make_xb` or `Make_xbw`) of the file with this name -/
def toolLoop (test : Bool) (make : CStr → Bool) (first : CStr) : List CStr → ToolRun
  | [] => ⟨[], 0⟩
  | a :: as =>
    if a = "--test".toList then ⟨[], if test then 0 else 1⟩
    else if make first then
      let r := toolLoop test make first as
      ⟨first :: r.read, r.code⟩
    else ⟨[first], 1⟩

/-- `main` of 2xb and 2xbw with these arguments -/
def toolMain (test : Bool) (make : CStr → Bool) (args : List CStr) : ToolRun := toolLoop test make (args.headD []) args

/-- the statements `ok = XBT_TestType(...) && ok`, bin_xml_types.cpp:1329-1354, 1366-1372; `XBT_TestType`, 1251-1324, gives a number of failures -/
def testRow (ok : Bool) : List Nat → Bool
  | [] => ok
  | n :: ns => testRow (n ≠ 0 && ok) ns

/-- `XBT_Test`, bin_xml_types.cpp:1331-1374, for the numbers of failures of the calls before and behind the loop 1356-1365. The loop has the condition `i < (2 << 30)`, in which the shift of
an `int` gives the smallest number (see `shl4` in Model/Scan.lean for the rule), so it ends before the first call. -/
def selfTest (before after : List Nat) : Bool := testRow (testRow true before) after

/-- `XBT2STR`, bin_xml_types.h:75-82 -/
def xbt2str : XBT → CStr
  | NULL => "XBT_NULL".toList | VARIANT => "XBT_VARIANT".toList | STRING => "XBT_STRING".toList | BLOB => "XBT_BLOB".toList | INT32 => "XBT_INT32".toList
  | INT64 => "XBT_INT64".toList | FLOAT => "XBT_FLOAT".toList | DOUBLE => "XBT_DOUBLE".toList | HEX => "XBT_HEX".toList | GUID => "XBT_GUID".toList | SHA1 => "XBT_SHA1".toList
  | UNIX_TIME => "XBT_UNIX_TIME".toList | IPv4 => "XBT_IPv4".toList | IPv6 => "XBT_IPv6".toList | UNKNOWN => "XBT_UNKNOWN".toList | UINT64 => "XBT_UINT64".toList
  | UNIX_TIME64_MSEC => "XBT_UNIX_TIME64_MSEC".toList | UINT32 => "XBT_UINT32".toList | UNIX_DATE => "XBT_UNIX_DATE".toList | INT32_DECI => "XBT_INT32_DECI".toList
  | INT32_CENTI => "XBT_INT32_CENTI".toList | INT32_MILI => "XBT_INT32_MILI".toList | INT32_MICRO => "XBT_INT32_MICRO".toList | INT32_NANO => "XBT_INT32_NANO".toList
  | BLOB_STRING => "XBT_BLOB_STRING".toList | LAST => "XBT_LAST".toList

/-- the loops over the symbols, xb2xml.cpp:39-44; `n` symbols are left. Printing a null pointer is undefined. -/
def Pool.printSyms (P : Pool) (tags : Bool) : Nat → Nat → Out CStr
  | 0, _ => return []
  | n+1, i => do
    let name ← P.nameOf tags i
    match name with
    | none => .ub
    | some name => do
      let t ← P.symType tags i
      match t with
      | none => .ub
      | some t => do
        let r ← P.printSyms tags n (i + 1)
        return '\t' :: toC name ++ ' ' :: ':' :: ' ' :: xbt2str t ++ '\n' :: r

/-- the size of the mapping that is asked for, xb2xml.cpp:28 -/
def toolSize (fileSize : Int) : Int := (fileSize * 3 / 2 + 0x4000) / 4096 * 4096

/-- `xb2xml` for a file with the extension `.xbw`, xb2xml.cpp:24-47: the text, `none` is the exit code 1. The size of the file is given by `file_getsize`, and converted to an `int`. -/
def xbwText (E : Env) (f : Img) (gm : Gm) (flt : List UInt8 → CStr) (junk : Int → CStr) (fuel : Nat) : Out (Option CStr) :=
  let size := ofU 32 (f.size % 2 ^ 32)
  if ¬ size > 0 then return none
  else do
    let g ← openFile E false (toolSize size).toNat f
    match g with
    | none => return none
    | some g => do
      let ts ← g.pool.printSyms true (g.pool.tags.maxId + 1).toNat 0
      let ps ← g.pool.printSyms false (g.pool.params.maxId + 1).toNat 0
      let s ← g.pool.print gm flt junk fuel
      return some ("<?xml version=\"1.0\" encoding=\"utf-8\"?>\n<!--\nTAG NAMES:\n".toList ++ ts ++ "\nATTR NAMES:\n".toList ++ ps ++ "-->\n".toList ++ s)

/-- `main` of xb2xml, xb2xml.cpp:14-65: what is printed and the exit code; `xbw` and `xb` are the texts of the files (for an `.xb` file a failure ends the process by `assert`; that is `ub`
here) -/
def xb2xmlMain (xbw : CStr → Out (Option CStr)) (xb : CStr → Out CStr) : List CStr → Out (CStr × Nat)
  | [] => return ([], 0)
  | a :: as =>
    if a = "-v".toList then xb2xmlMain xbw xb as
    else if lastDot a = some ".xbw".toList then do
      let s ← xbw a
      match s with
      | none => return ([], 1)
      | some s => do
        let r ← xb2xmlMain xbw xb as
        return (s ++ r.1, r.2)
    else do
      let s ← xb a
      let r ← xb2xmlMain xbw xb as
      return ("<?xml version=\"1.0\" encoding=\"utf-8\"?>\n".toList ++ s ++ r.1, r.2)

end BX
