import Verif.Spec.Copy
import Verif.Model.Edit
/-
Elements with values and changes of the values of children, without any memory.
-/
namespace BX.Spec
open BX XBT

/-! ### new elements -/

/-- the type of the value that a call that makes an element is for -/
def argType : TagArg → XBT
  | .str _ | .hexStr => STRING
  | .blob _ _ => BLOB
  | .hex _ _ => HEX
  | .int32 _ => INT32
  | .uint32 => UINT32
  | .int64 _ => INT64
  | .uint64 => UINT64
  | .float _ => FLOAT
  | .double => DOUBLE
  | .guid _ => GUID
  | .sha1 _ => SHA1
  | .time _ => UNIX_TIME
  | .time64 _ => UNIX_TIME64_MSEC
  | .ipv4 => IPv4
  | .ipv6 => IPv6

/-- the type of a new element: that of its symbol; a symbol without a fixed type takes that of the call -/
def newType (w : TagArg) (sym : XBT) : XBT := if sym = VARIANT then argType w else sym

/-- the bytes that reading an element of type `t` must give, for all types but `BLOB_STRING` -/
def tagValue : TagArg → List UInt8
  | .str (some m) => m.takeWhile (· ≠ 0) ++ [0]
  | .blob (some m) n | .hex (some m) n => le32 n ++ m.take n
  | .blob none n | .hex none n => le32 n ++ List.replicate n 0
  | .int32 v | .float v | .time v => le32 v
  | .int64 v | .time64 v => le64 v
  | .guid m => m.take 16
  | .sha1 m => m.take 20
  | .str none | .hexStr | .uint32 | .uint64 | .double | .ipv4 | .ipv6 => []

/-- reading the text of an element: `getStr`, then the bytes up to the first ASCII NUL -/
def readText (P : Pool) (e : Int) : Out (Option BStr) := do
  let r ← P.getPtr e .str
  match r with
  | none => return none
  | some a => do
    let s ← P.img.str a
    return some s

/-- the document got a detached element `o` without attributes and children, and is otherwise the same -/
structure GotElem (o : Nat) (D D' : Doc) : Prop where
  new : ¬ D.forest.Elem o
  tag : D'.forest.tag o = true
  kids : D'.forest.at' (.kids o) = [] ∧ D'.forest.at' (.attrs o) = []
  here : ∃ k, D.forest.at' (.loose k) = [] ∧ D'.forest.at' (.loose k) = [o] ∧ ∀ q, q ≠ .loose k → D'.forest.at' q = D.forest.at' q
  elem : ∀ e, D.forest.Elem e → D'.forest.tag e = D.forest.tag e ∧ D'.id e = D.id e ∧ D'.type e = D.type e ∧ D'.val e = D.val e
  root : D'.root = D.root
  syms : D'.syms = D.syms
  ready : D'.ready = D.ready

/-! ### values of children -/

/-- the children of `p`: their identifications, types and values, in order -/
def Doc.kidEntries (D : Doc) (p : Nat) : List Entry := (D.forest.at' (.kids p)).map fun a => ⟨D.id a, D.type a, readable (D.type a) (D.val a)⟩

/-- the bytes that reading a child must give after it has been set -/
def setValue : SetArg → List UInt8
  | .plain => []
  | .int32 v | .time v => le32 v
  | .int64 v => le64 v
  | .str (some m) => m.takeWhile (· ≠ 0) ++ [0]
  | .sha1 (some m) => m.take 20
  | .sha1 none => List.replicate 20 0
  | .str none => []

/-- the first entry with that identification is changed; if there is none, the new one is the last -/
def setFirst (id : Int) (new : Entry → Entry) (fresh : Entry) : List Entry → List Entry
  | [] => [fresh]
  | x :: l => if x.id = id then new x :: l else x :: setFirst id new fresh l

/-- the type that a call to set a child is for -/
def setType : SetArg → XBT
  | .plain => NULL
  | .int32 _ => INT32
  | .int64 _ => INT64
  | .str _ => STRING
  | .time _ => UNIX_TIME
  | .sha1 _ => SHA1

/-- the children of an element after one of them has been set, where its symbol has type `t`: `tag` changes no child that exists, the others give it
the new value, and, if its type is not the one the call is for, the type of the symbol -/
def setKids (t : XBT) (id : Int) (w : SetArg) (l : List Entry) : List Entry :=
  setFirst id (fun x => match w with | .plain => x | _ => ⟨id, if x.type = setType w then x.type else t, setValue w⟩) ⟨id, t, setValue w⟩ l

/-- the first child of `p` with that identification -/
def Doc.kid (D : Doc) (p : Nat) (id : Int) : Option Nat := (D.forest.at' (.kids p)).find? fun x => D.id x = id

/-- the value of the child `c` can be overwritten where it is: the type is the right one, a text does not need more words of four bytes -/
def Doc.fits (D : Doc) (c : Nat) : SetArg → Prop
  | .plain => True
  | .int32 _ => D.type c = INT32
  | .int64 _ => D.type c = INT64
  | .str (some m) => D.type c = STRING ∧ (m.takeWhile (· ≠ 0)).length / 4 ≤ ((D.val c).takeWhile (· ≠ 0)).length / 4
  | .str none => False
  | .sha1 _ => D.type c = SHA1
  | .time _ => False

/-- the same document except for the list of children of `p`, the value of the child `c` and new elements -/
structure OnlyKid (p : Nat) (c : Option Nat) (D D' : Doc) : Prop where
  kids : ∀ q, D.forest.Elem q → q ≠ p → D'.forest.at' (.kids q) = D.forest.at' (.kids q)
  attrs : ∀ q, D.forest.Elem q → D'.forest.at' (.attrs q) = D.forest.at' (.attrs q)
  elem : ∀ e, D.forest.Elem e → D'.forest.Elem e ∧ D'.forest.tag e = D.forest.tag e ∧ D'.id e = D.id e ∧ (some e ≠ c → D'.type e = D.type e ∧ D'.val e = D.val e)
  others : ∀ e ∈ D.forest.at' (.kids p), some e ≠ c → e ∈ D'.forest.at' (.kids p)
  root : D'.root = D.root
  syms : D'.syms = D.syms
  ready : D'.ready = D.ready

/-- the identifications and values of the children, as `NextChild` and `getData` show them -/
def readKids (P : Pool) : List Int → Out (List (Int × Data))
  | [] => return []
  | e :: es => do
    let id ← P.eId e
    let d ← elemValue P e
    let l ← readKids P es
    return (id, d) :: l

/-- reading a child: `p->tagGet(id)`, then the bytes that `getData` describes -/
def readKid (P : Pool) (p id : Int) (fuel : Nat) : Out (Option Data) := do
  let c ← P.find p 16 id fuel
  match c with
  | none => return none
  | some c => do
    let d ← elemValue P c
    return some d

/-! ### texts -/

/-- the bytes of an element of a type for texts: behind the length for `BLOB_STRING` -/
def Doc.textBytes (D : Doc) (e : Nat) : List UInt8 := if D.type e = BLOB_STRING then (D.val e).drop 4 else D.val e

/-- an element of a type for texts whose value holds the end of the text -/
def Doc.IsText (D : Doc) (e : Nat) : Prop := (D.type e = STRING ∨ D.type e = BLOB_STRING) ∧ GoodVal (D.type e) (D.val e) ∧ (0 : UInt8) ∈ D.textBytes e

/-- the text of an element -/
def Doc.textOf (D : Doc) (e : Nat) : BStr := (D.textBytes e).takeWhile (· ≠ 0)

/-- the bytes that a new text of an element may have, with its end: as many as the text has for `STRING`, all bytes of a `BLOB_STRING` -/
def Doc.textRoom (D : Doc) (e : Nat) : Nat := if D.type e = BLOB_STRING then (D.textBytes e).length else (D.textOf e).length + 1

/-- the child `e` of `p` has been replaced by a new element `n`, which is the last one and has the attributes of `e`; `e` is detached, keeps its children, and has no attributes;
all else is the same -/
structure Doc.Swapped (D D' : Doc) (p e n : Nat) : Prop where
  new : ¬ D.forest.Elem n
  kids : D'.forest.at' (.kids p) = (D.forest.at' (.kids p)).erase e ++ [n]
  attrs : D'.forest.at' (.attrs n) = D.forest.at' (.attrs e)
  leaf : D'.forest.at' (.kids n) = []
  gone : (∃ k, D'.forest.at' (.loose k) = [e]) ∧ D'.forest.at' (.attrs e) = []
  tag : D'.forest.tag n = true
  id : D'.id n = D.id e
  others : (∀ q, D.forest.Elem q → q ≠ p → D'.forest.at' (.kids q) = D.forest.at' (.kids q)) ∧ ∀ q, D.forest.Elem q → q ≠ e → D'.forest.at' (.attrs q) = D.forest.at' (.attrs q)
  elem : ∀ x, D.forest.Elem x → D'.forest.Elem x ∧ D'.forest.tag x = D.forest.tag x ∧ D'.id x = D.id x ∧ D'.type x = D.type x ∧ D'.val x = D.val x
  root : D'.root = D.root
  syms : D'.syms = D.syms
  ready : D'.ready = D.ready

end BX.Spec
