import Verif.Model.Types
import Verif.Model.Value
/-
The creator's symbol tables. Models src/bin_xml_creator.cpp:447-495 (tables), 1150-1273 and
include/binary_xml/bin_xml_creator.h:23.
-/
namespace BX
open XBT

/-- a name: the bytes before the terminating NUL -/
abbrev BStr := List UInt8

/-- bytes of a string literal of the source (ASCII) -/
def b8 (s : String) : BStr := s.toList.map (fun c => UInt8.ofNat c.toNat)

/-- result of the binary search: the position of the equal element, or the position where it belongs -/
inductive Pos where
  | hit (M : Nat)
  | miss (P : Nat)
deriving DecidableEq, Repr

/-- the binary search `while (B <= E)`, bin_xml_creator.cpp:1155-1171, 1205-1223, 1260-1271 and bin_xml.cpp:701-714.
`hi` is `E+1` (so `M = (B+E)>>1 = (B+hi-1)/2`, and the insertion position `E+1` is `hi`); `cmp M` is
`strcmp(symbol,table[M])`. -/
def bsearch (cmp : Nat → Int) (B hi : Nat) : Pos :=
  if h : B < hi then
    let M := (B + hi - 1) / 2
    if cmp M = 0 then .hit M
    else if cmp M < 0 then bsearch cmp B M
    else bsearch cmp (M + 1) hi
  else .miss hi
termination_by hi - B
decreasing_by all_goals (simp only [M] at *; omega)

/-- `MAX_SYMBOL_COUNT`, bin_xml_creator.h:23 -/
def MAX_SYMBOL_COUNT : Nat := 32768

/-- `symbol_table[t]`, `symbol_table_types[t]`, `symbol_count[t]`: the used part of both arrays (`memmove` shifts them
together, bin_xml_creator.cpp:1180-1190) -/
abbrev SymTab := List (BStr × XBT)

/-- name of the `i`-th symbol (`symbol_table[t][i]`) -/
def SymTab.name (t : SymTab) (i : Nat) : BStr := (t.getD i ([], NULL)).1
/-- `symbol_table_types[t][i]` -/
def SymTab.type (t : SymTab) (i : Nat) : XBT := (t.getD i ([], NULL)).2

/-- the search for `s` in the table -/
def SymTab.search (t : SymTab) (s : BStr) : Pos := bsearch (fun M => strcmpB s (t.name M)) 0 t.length

/-- the common part of `FindOrAddTyped`, bin_xml_creator.cpp:1150-1198, and `FindOrAdd`, 1200-1251: `upd` is the new type
of a symbol that is already there, `ini` the type of a new one. `none` is a null name. Returned id and new table. -/
def SymTab.reg (t : SymTab) (s : Option BStr) (upd : XBT → XBT) (ini : XBT) : Int × SymTab :=
  match s with
  | none => (-1, t)
  | some s =>
    match t.search s with
    | .hit M => (M, t.set M (t.name M, upd (t.type M)))
    | .miss P =>
      if MAX_SYMBOL_COUNT ≤ t.length then (-1, t)
      else (P, t.take P ++ (s, ini) :: t.drop P)

/-- `FindOrAddTyped`, bin_xml_creator.cpp:1150-1198 -/
def SymTab.findOrAddTyped (t : SymTab) (s : Option BStr) (type : XBT) : Int × SymTab :=
  t.reg s (fun old => joinTypes type old) type

/-- `FindOrAdd`, bin_xml_creator.cpp:1200-1251. A null value is treated by `XBT_Detect` like the empty text. -/
def SymTab.findOrAdd (t : SymTab) (s : Option BStr) (value : Option CStr) : Int × SymTab :=
  t.reg s (fun old => detect2 (value.getD []) old) (detect (value.getD []))

/-- `"et-tecera"` -/
def etTecera : BStr := b8 "et-tecera"

/-- `Find`, bin_xml_creator.cpp:1254-1273 -/
def SymTab.find (t : SymTab) (s : Option BStr) : Int :=
  match s with
  | none => -1
  | some s =>
    if s = etTecera then -9
    else match t.search s with
      | .hit M => M
      | .miss _ => -1

/-- one registration -/
inductive RegOp where
  | typed (name : BStr) (type : XBT)
  | text (name : BStr) (value : Option CStr)

def RegOp.name : RegOp → BStr
  | .typed n _ => n
  | .text n _ => n

/-- one registration: returned id and new table -/
def RegOp.run (t : SymTab) : RegOp → Int × SymTab
  | .typed n ty => t.findOrAddTyped (some n) ty
  | .text n v => t.findOrAdd (some n) v

/-- a sequence of registrations into an empty table, as both passes over the source do, bin_xml_creator.cpp:447-466,
468-482, 556-577 -/
def regAll (ops : List RegOp) : SymTab := ops.foldl (fun t op => (op.run t).2) []

end BX
