import Verif.Spec.Session
import Verif.Model.Attrs
/-
What the attributes of an element are, without any memory.
-/
namespace BX.Spec
open BX XBT

/-- the type of the symbol `id` of a document, for tags (`b`) or attributes: negative identifications are built in, unknown ones have no type -/
def Doc.symType (D : Doc) (b : Bool) (id : Int) : XBT :=
  if id < 0 then (if b then builtinTagType id else builtinAttrType id) else ((D.syms b)[id.toNat]?.map Sym.type).getD UNKNOWN

/-- stored bytes have the form of a value of their type: texts have an end, blocks begin with their length, all others have their size -/
def GoodVal : XBT → List UInt8 → Prop
  | STRING, v => (0 : UInt8) ∈ v
  | BLOB, v | HEX, v | BLOB_STRING, v => ∃ bs, v = le32 (bs.length : Int) ++ bs ∧ bs.length + 4 < 2147483648
  | SHA1, v => 20 ≤ v.length
  | t, v => if is4 t then v.length = 4 else (v.length : Int) = fixedSize t

/-- the bytes of a value without what may follow it: a text up to its end, the 20 bytes of a digest -/
def readable : XBT → List UInt8 → List UInt8
  | STRING, v => v.takeWhile (· ≠ 0) ++ [0]
  | SHA1, v => v.take 20
  | _, v => v

/-- an attribute: its identification, type and value -/
structure Entry where
  id : Int
  type : XBT
  value : List UInt8
deriving DecidableEq

/-- the attributes of `p` in their order -/
def Doc.entries (D : Doc) (p : Nat) : List Entry := (D.forest.at' (.attrs p)).map fun a => ⟨D.id a, D.type a, readable (D.type a) (D.val a)⟩

/-- what the argument of a write means: the bytes that reading must give -/
def argValue : AttrArg → List UInt8
  | .null | .hexStr _ | .ipv4 | .ipv6 | .str none | .str2 none => []
  | .str (some m) | .str2 (some m) => m.takeWhile (· ≠ 0) ++ [0]
  | .blob (some m) n | .hex (some m) n => le32 n ++ m.take n
  | .blob none n | .hex none n => le32 n ++ List.replicate n 0
  | .int32 v | .uint32 v | .float v | .time v => le32 v
  | .int64 v | .uint64 v | .double v | .time64 v => le64 v
  | .guid m => m.take 16
  | .sha1 m => m.take 20

/-- the attributes written by calls with these results -/
def written (D : Doc) : List (Int × AttrArg) → List Bool → List Entry
  | (id, w) :: ws, r :: rs => (if r && !w.nothing then [⟨id, D.symType false id, argValue w⟩] else []) ++ written D ws rs
  | _, _ => []

/-- the same document except for attributes added to `p` -/
structure SameBut (p : Nat) (D D' : Doc) : Prop where
  lists : ∀ q, q ≠ .attrs p → D'.forest.at' q = D.forest.at' q
  elem : ∀ e, D.forest.Elem e → D'.forest.tag e = D.forest.tag e ∧ D'.id e = D.id e ∧ D'.type e = D.type e ∧ D'.val e = D.val e
  root : D'.root = D.root
  syms : D'.syms = D.syms
  ready : D'.ready = D.ready

/-- reading an attribute: `p->attrGet(id)`, then the bytes that `getData` describes -/
def readAttr (P : Pool) (p id : Int) (fuel : Nat) : Out (Option (XBT × List UInt8)) := do
  let a ← P.find p 20 id fuel
  match a with
  | none => return none
  | some a => do
    let r ← P.getData a
    match r.type with
    | none => .fail
    | some t =>
      if r.size < 0 then .fail
      else do
        let bs ← P.img.rd r.data r.size.toNat
        return some (t, bs)

/-- reading through a typed accessor: `p->attrGet(id)->get...()`, then `n` bytes at the returned address -/
def readTyped (P : Pool) (p id : Int) (g : Getter) (n fuel : Nat) : Out (Option (List UInt8)) := do
  let a ← P.find p 20 id fuel
  match a with
  | none => return none
  | some a => do
    let r ← P.getPtr a g
    match r with
    | none => return none
    | some x => do let bs ← P.img.rd x n; return some bs

end BX.Spec
