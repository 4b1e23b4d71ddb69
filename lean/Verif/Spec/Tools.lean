import Verif.Spec.Session
import Verif.Model.Types
/-
What is printed about the symbols of a document, and how a reader skips a comment.
-/
namespace BX.Spec

/-- the names of the types, in the order of their numbers in files -/
def typeNames : List String :=
  ["NULL", "VARIANT", "STRING", "BLOB", "INT32", "INT64", "FLOAT", "DOUBLE", "HEX", "GUID", "SHA1", "UNIX_TIME", "IPv4", "IPv6", "UNKNOWN", "UINT64", "UNIX_TIME64_MSEC", "UINT32", "UNIX_DATE",
   "INT32_DECI", "INT32_CENTI", "INT32_MILI", "INT32_MICRO", "INT32_NANO", "BLOB_STRING", "LAST"]

/-- the lines about symbols: name and type of each, in the order of their identifications -/
def symbolLines (typeName : XBT → CStr) (l : List Sym) : CStr := (l.map fun s => '\t' :: toC s.name ++ " : ".toList ++ typeName s.type ++ ['\n']).flatten

/-- the comment with all symbols of a document -/
def symbolComment (typeName : XBT → CStr) (D : Doc) : CStr :=
  "<!--\nTAG NAMES:\n".toList ++ symbolLines typeName (D.syms true) ++ "\nATTR NAMES:\n".toList ++ symbolLines typeName (D.syms false) ++ "-->\n".toList

/-- what a reader of XML reads after the beginning of a comment: the text behind the first `-->` -/
def afterComment : CStr → Option CStr
  | '-' :: '-' :: '>' :: r => some r
  | _ :: r => afterComment r
  | [] => none

end BX.Spec
