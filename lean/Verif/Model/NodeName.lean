import Verif.Model.Symbols
import Verif.Model.Create
/-
The names of nodes as the creator gives them. Models src/bin_xml_creator.cpp:1288-1307 (`getNodeName`).
-/
namespace BX

/-- the `switch` in `Bin_xml_creator::getNodeName`, bin_xml_creator.cpp:1293-1304; `none` is a null pointer -/
def creatorReserved (id : Int) : Option BStr :=
  if id = -1 then some (b8 "NULL")
  else if id = -2 then some (b8 "META_ROOT")
  else if id = -3 then some (b8 "TAG_SYMBOLS")
  else if id = -4 then some (b8 "PARAM_SYMBOLS")
  else if id = -5 then some (b8 "HASH_INDEX")
  else if id = -6 then some (b8 "PAYLOAD")
  else if id = -7 then some (b8 "REFERENCE")
  else if id = -8 then some (b8 "PROCESSED")
  else if id = -9 then some (b8 "ET_TECERA")
  else none

/-- `Bin_xml_creator::getNodeName`, bin_xml_creator.cpp:1289-1307, for the names of the table of tags; reading behind the table is
undefined -/
def creatorNodeName (names : List BStr) (id : Int) : Out (Option BStr) :=
  if ¬ (id > -11 ∧ id < names.length) then return none
  else if 0 ≤ id then
    match names[id.toNat]? with
    | some s => return some s
    | none => .ub
  else return creatorReserved id

end BX
