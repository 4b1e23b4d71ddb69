import Verif.Spec.Copy
import Verif.Model.MakeXbw
/-
What a writable document made of a text source contains.
-/
namespace BX.Spec
open BX XBT

/-- the position and the type of a symbol in a table -/
def symbolIn : SymTab → BStr → Option (Nat × XBT)
  | [], _ => none
  | s :: t, name => if s.1 = name then some (0, s.2) else (symbolIn t name).map fun x => (x.1 + 1, x.2)

/-- what a value becomes when its symbol has type `t`: a text is converted, no value goes with no type only. Digests, dates and hexadecimal digits are not
covered. -/
def storedAs (flt : CStr → List UInt8) (t : XBT) : SVal → Option Data
  | .none => if t = NULL then some ⟨NULL, []⟩ else none
  | .text s => if t = HEX ∨ t = SHA1 ∨ t = UNIX_DATE then none else textData flt s t
  | .bin _ _ => none

/-- one attribute: its identification is the position of its name in the table (`et-tecera` is reserved) -/
def attrStored (flt : CStr → List UInt8) (params : SymTab) (a : BStr × SVal) : Option (Int × Data) :=
  if a.1 = b8 "et-tecera" then none
  else (symbolIn params a.1).bind fun s => (storedAs flt s.2 a.2).map fun d => ((s.1 : Int), d)

/-- all attributes -/
def attrsStored (flt : CStr → List UInt8) (params : SymTab) : List (BStr × SVal) → Option (List (Int × Data))
  | [] => some []
  | a :: as => (attrStored flt params a).bind fun x => (attrsStored flt params as).map fun xs => x :: xs

mutual
/-- the tree that a source element becomes; `none` where a value cannot be stored -/
def treeStored (flt : CStr → List UInt8) (tags params : SymTab) : Elem → Option CTree
  | .mk name v as ks =>
    if name = b8 "et-tecera" then none
    else (symbolIn tags name).bind fun s => (storedAs flt s.2 v).bind fun d => (attrsStored flt params as).bind fun as' =>
      (treesStored flt tags params ks).map fun ks' => .mk s.1 d as' ks'
def treesStored (flt : CStr → List UInt8) (tags params : SymTab) : List Elem → Option (List CTree)
  | [] => some []
  | e :: es => (treeStored flt tags params e).bind fun t => (treesStored flt tags params es).map fun ts => t :: ts
end

/-- the size that the file is mapped for, as it was before: a file with a header keeps its own -/
def mapped (filesize : Nat) (f : Img) : Nat := if f.size < 92 then max 0x40000 ((filesize / 4096 + 1) * 65536) else (f.field 36).toNat

/-- a value that a C program can pass -/
def CVal : SVal → Prop
  | .text s => CText s
  | _ => True

mutual
/-- all texts of a source are texts as a C program can pass them -/
def CTexts : Elem → Prop
  | .mk _ v as ks => CVal v ∧ (∀ a ∈ as, CVal a.2) ∧ CTextsAll ks
def CTextsAll : List Elem → Prop
  | [] => True
  | e :: es => CTexts e ∧ CTextsAll es
end

end BX.Spec
