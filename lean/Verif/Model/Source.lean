import Verif.Model.Attrs
import Verif.Model.Create
/-
A writable document as the source of the creator. Models src/bin_write_plugin.cpp:1491-1501, 1535-1547, 2277-2284, 2771-2931 and
src/bin_xml_creator.cpp:371-443 (for this source), 445-465. The callbacks of the creator do not change the document, so an iteration is modelled by
the list of its calls. `fuel` bounds the number of steps of a loop; running out of it stands for an iteration that does not end.
-/
namespace BX
open XBT

/-- `BW_plugin::BWE`, bin_write_plugin.cpp:2810-2816; the callers use the result without looking at it, so a violated assertion (a null
pointer) is undefined -/
def Pool.at' (P : Pool) (x : Int) : Out Int := if 0 ≤ x ∧ x + 24 ≤ P.fileSize then .ok x else .ub

/-- `getTagName` (`tags` true), bin_write_plugin.cpp:1491-1501, and `getAttrName`, 1535-1547; `none` is a null pointer -/
def Pool.nameOf (P : Pool) (tags : Bool) (id : Int) : Out (Option BStr) :=
  if (P.tab tags).index = 0 then return none
  else if id < 0 then return some (if tags then xtnr2str id else xpnr2str id)
  else P.symName tags id

/-- `getNodeName`, bin_write_plugin.cpp:2771-2782 (the element is not null) -/
def Pool.nodeName (P : Pool) (e : Int) : Out (Option BStr) :=
  if e ≤ 0 ∨ P.fileSize < e + 24 then return none
  else do
    let fl ← P.eFlags e
    let id ← P.eId e
    P.nameOf (decide (fl &&& 1 ≠ 0)) id

/-- the type of an element as a value of the enumeration; a byte that is no type is used there as if it were one, the model calls it
undefined -/
def Pool.typeOf (P : Pool) (e : Int) : Out XBT := do
  let c ← P.eType e
  match ofCode c with
  | none => .ub
  | some t => return t

/-- the memory at the pointer behind an element, bin_write_plugin.cpp:98-101, as far as the file reaches -/
def Pool.dataOf (P : Pool) (e : Int) : List UInt8 := P.behind (e + 24).toNat

/-- `getNodeBinValue`, bin_write_plugin.cpp:2790-2808: the type, the reported size, and the memory at the returned pointer (`none` for a null
pointer). Reading a length or a text beyond the end of the file is undefined. -/
def Pool.nodeBinValue (P : Pool) (e : Int) : Out (XBT × Int × Option (List UInt8)) := do
  let t ← P.typeOf e
  if t = BLOB ∨ t = HEX then do
    let n ← P.img.i32 (e + 24)
    return (t, n, some (P.dataOf e))
  else if t = STRING then do
    let s ← P.img.str (e + 24)
    return (t, s.length, some (P.dataOf e))
  else if t = NULL then return (t, 0, none)
  else return (t, 0, some (P.dataOf e))

/-- the loop of `ForAllChildren`, bin_write_plugin.cpp:2824-2830, and `ForAllBinParams`, 2872-2888 -/
def Pool.visitLoop (P : Pool) (first : Int) : Nat → Int → Out (List Int)
  | 0, _ => .ub
  | fuel+1, child => do
    let nx ← P.eNext child
    if nx = first then return [child]
    else do
      let c ← P.at' nx
      let rest ← P.visitLoop first fuel c
      return child :: rest

/-- `ForAllChildren` (`field` 16), bin_write_plugin.cpp:2818-2831, and `ForAllBinParams` (`field` 20), 2866-2891: the elements for which the
callback is called. (`E->BWE` in `ForAllChildren` does the same as the one of the plugin for elements of the same file.) -/
def Pool.visit (P : Pool) (e : Int) (field : Nat) (fuel : Nat) : Out (List Int) := do
  let first ← P.img.i32 (e + field)
  if first = 0 then return []
  else do
    let c ← P.at' first
    P.visitLoop first fuel c

/-- `ForAllParams`, bin_write_plugin.cpp:2849-2864: there is no test for an element without attributes, `BWE(0)` is the header of the file,
which is then taken for an attribute -/
def Pool.visitText (P : Pool) (e : Int) (fuel : Nat) : Out (List Int) := do
  let first ← P.eAttr e
  if first = 0 then .ub
  else do
    let c ← P.at' first
    P.visitLoop first fuel c

mutual
/-- `ForAllChildrenRecursively`, bin_write_plugin.cpp:2833-2847: the elements for which the callback is called, with their depths -/
def Pool.walk (P : Pool) : Nat → Int → Nat → Out (List (Int × Nat))
  | 0, _, _ => .ub
  | fuel+1, e, deep => do
    let first ← P.eChild e
    if first = 0 then return [(e, deep)]
    else do
      let c ← P.at' first
      let r ← P.walkLoop fuel first c (deep + 1)
      return (e, deep) :: r
/-- the loop in it, bin_write_plugin.cpp:2840-2846 -/
def Pool.walkLoop (P : Pool) : Nat → Int → Int → Nat → Out (List (Int × Nat))
  | 0, _, _, _ => .ub
  | fuel+1, first, child, deep => do
    let r ← P.walk fuel child deep
    let nx ← P.eNext child
    if nx = first then return r
    else do
      let c ← P.at' nx
      let s ← P.walkLoop fuel first c deep
      return r ++ s
end

/-- the arguments of the callback of `ForAllBinParams` for one attribute, bin_write_plugin.cpp:2882-2884: name, identification, type and the
memory at the value -/
def Pool.binParam (P : Pool) (a : Int) : Out (Option BStr × Int × XBT × List UInt8) := do
  let id ← P.eId a
  let name ← P.nameOf false id
  let t ← P.typeOf a
  return (name, id, t, P.dataOf a)

/-- `ForAllBinParams`: the arguments of all calls -/
def Pool.binParamsOf (P : Pool) : List Int → Out (List (Option BStr × Int × XBT × List UInt8))
  | [] => return []
  | a :: as => do
    let x ← P.binParam a
    let r ← P.binParamsOf as
    return x :: r

def Pool.binParams (P : Pool) (e : Int) (fuel : Nat) : Out (List (Option BStr × Int × XBT × List UInt8)) := do
  let l ← P.visit e 20 fuel
  P.binParamsOf l

/-- `getSymbolCount`, bin_write_plugin.cpp:2893-2904 -/
def Pool.symbolCount (P : Pool) (tags : Bool) : Int := (P.tab tags).maxId + 1

/-- `getSymbol`, bin_write_plugin.cpp:2906-2930, for positions in the table: the name and the type -/
def Pool.getSymbolAt (P : Pool) (tags : Bool) (i : Nat) : Out (Option BStr × XBT) := do
  let t ← P.symType tags i
  match t with
  | none => .ub
  | some t =>
    if tags = false ∧ t = UNKNOWN then return (none, t)
    else do
      let n ← P.nameOf tags i
      return (n, t)

/-- the loop of `CopySymbolTable`, bin_xml_creator.cpp:455-461: the registrations for `n` symbols from the `i`-th on. (Registering a null name
does nothing.) -/
def Pool.symbolOps (P : Pool) (tags : Bool) : Nat → Nat → Out (List RegOp)
  | 0, _ => return []
  | n+1, i => do
    let s ← P.getSymbolAt tags i
    let rest ← P.symbolOps tags n (i + 1)
    match s.1 with
    | none => return rest
    | some name => return (if s.2 = UNKNOWN then rest else .typed name s.2 :: rest)

/-- an attribute as the creator gets it; a null name (no dictionary) is looked up in vain there, the model gives up -/
def srcParam : Option BStr × Int × XBT × List UInt8 → Out (BStr × SVal)
  | (none, _) => .fail
  | (some name, _, t, d) => return (name, .bin t d)

def srcParams : List (Option BStr × Int × XBT × List UInt8) → Out (List (BStr × SVal))
  | [] => return []
  | p :: ps => do
    let x ← srcParam p
    let r ← srcParams ps
    return x :: r

mutual
/-- an element as `WriteNode`, bin_xml_creator.cpp:815-883, gets it through the interface: `getNodeName`, `getNodeBinValue`,
`ForAllBinParams`, `ForAllChildren` and the same for each child. (The size reported with the value is the `binSize` of Model/Create.lean.) -/
def Pool.source (P : Pool) : Nat → Int → Out Elem
  | 0, _ => .ub
  | fuel+1, e => do
    let name ← P.nodeName e
    match name with
    | none => .fail
    | some name => do
      let v ← P.nodeBinValue e
      let ps ← P.binParams e fuel
      let ps ← srcParams ps
      let ks ← P.visit e 16 fuel
      let ks ← P.sourceAll fuel ks
      return .mk name (match v.2.2 with | none => .none | some d => .bin v.1 d) ps ks
def Pool.sourceAll (P : Pool) : Nat → List Int → Out (List Elem)
  | 0, _ => .ub
  | _+1, [] => return []
  | fuel+1, e :: es => do
    let k ← P.source fuel e
    let ks ← P.sourceAll fuel es
    return k :: ks
end

/-- `Make_xb` with a writable document as the source, bin_xml_creator.cpp:371-443. `CopySymbolTable` succeeds when there is a tag symbol; the
other case is not modelled. The size of the file is the one of the document. -/
def Pool.toXb (flt : CStr → List UInt8) (filename : BStr) (mtime : Int) (m0 : Mem) (P : Pool) (fuel : Nat) : Out Img :=
  if P.root = 0 ∨ P.symbolCount true ≤ 0 then .fail
  else do
    let ts ← P.symbolOps true (P.symbolCount true).toNat 0
    let ps ← P.symbolOps false (P.symbolCount false).toNat 0
    let e ← P.source fuel P.root
    makeXbWith flt ts ps filename mtime P.fileSize m0 e

end BX
