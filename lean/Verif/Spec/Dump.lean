import Verif.Spec.Tree
import Verif.Spec.Codec
import Verif.Model.Dump
/-
A small reader of tagged text, and the tags of an element tree in document order. Nothing here knows how the text is made.
-/
namespace BX.Spec
open BX XBT

/-- a tag of a text: opened with attributes, or closed -/
inductive Tag where
  | opened (name : CStr) (attrs : List (CStr × CStr))
  | closed (name : CStr)
deriving DecidableEq

/-- where the reader is: in the text between tags, after `<`, in the name of an opening tag, after a part of it, in the name of an attribute, after its `=`, in its value, after `/`, in the name of a
closing tag -/
inductive TagAt where
  | text
  | lt
  | name (n : CStr)
  | inside (n : CStr) (as : List (CStr × CStr))
  | attr (n : CStr) (as : List (CStr × CStr)) (a : CStr)
  | eq (n : CStr) (as : List (CStr × CStr)) (a : CStr)
  | value (n : CStr) (as : List (CStr × CStr)) (a v : CStr)
  | slash (n : CStr) (as : List (CStr × CStr))
  | close (n : CStr)
deriving DecidableEq

/-- characters that end or cannot be in a name -/
def special (c : Char) : Bool := c = '<' || c = '>' || c = '/' || c = '=' || c = '"' || c = ' ' || c = '\t' || c = '\n' || c = '&'

/-- reading one character: where the reader is afterwards and the tags completed by it (`none`: the text is not well formed) -/
def Tag.step : TagAt → Char → Option (TagAt × List Tag)
  | .text, c => if c = '<' then some (.lt, []) else some (.text, [])
  | .lt, c => if c = '/' then some (.close [], []) else if special c then none else some (.name [c], [])
  | .name n, c =>
    if c = '>' then some (.text, [.opened n []])
    else if c = '/' then some (.slash n [], [])
    else if c = ' ' then some (.attr n [] [], [])
    else if special c then none else some (.name (n ++ [c]), [])
  | .inside n as, c =>
    if c = '>' then some (.text, [.opened n as])
    else if c = '/' then some (.slash n as, [])
    else if c = ' ' then some (.attr n as [], [])
    else none
  | .attr n as a, c => if c = '=' then (if a = [] then none else some (.eq n as a, [])) else if special c then none else some (.attr n as (a ++ [c]), [])
  | .eq n as a, c => if c = '"' then some (.value n as a [], []) else none
  | .value n as a v, c => if c = '"' then some (.inside n (as ++ [(a, v)]), []) else if c = '<' then none else some (.value n as a (v ++ [c]), [])
  | .slash n as, c => if c = '>' then some (.text, [.opened n as, .closed n]) else none
  | .close n, c => if c = '>' then (if n = [] then none else some (.text, [.closed n])) else if special c then none else some (.close (n ++ [c]), [])

/-- reading a text -/
def Tag.scan : TagAt → CStr → Option (TagAt × List Tag)
  | q, [] => some (q, [])
  | q, c :: s =>
    match Tag.step q c with
    | none => none
    | some (q', ts) => (Tag.scan q' s).map fun r => (r.1, ts ++ r.2)

/-- the tags of a whole text (`none`: it is not well formed) -/
def tagsOf (s : CStr) : Option (List Tag) :=
  match Tag.scan .text s with
  | some (.text, ts) => some ts
  | _ => none

/-- every closing tag closes the last open tag, and all are closed: `open_` are the names of the open ones -/
def nested : List CStr → List Tag → Bool
  | open_, [] => open_.isEmpty
  | open_, .opened n _ :: ts => nested (n :: open_) ts
  | n :: open_, .closed m :: ts => n == m && nested open_ ts
  | [], .closed _ :: _ => false

mutual
/-- the tags of an element and all elements inside it, in document order; `txt` is the text of a stored value, `pt` the type of an attribute -/
def docTags (flt : CStr → List UInt8) (pt : BStr → XBT) (txt : Data → CStr) : Elem → List Tag
  | .mk name _ params children =>
    .opened (toC name) (params.map fun p => (toC p.1, txt (attrData flt (pt p.1) p.2))) :: docTagsAll flt pt txt children ++ [.closed (toC name)]
def docTagsAll (flt : CStr → List UInt8) (pt : BStr → XBT) (txt : Data → CStr) : List Elem → List Tag
  | [] => []
  | e :: es => docTags flt pt txt e ++ docTagsAll flt pt txt es
end

/-- a name that can be written in a tag -/
def GoodName (n : BStr) : Prop := n ≠ [] ∧ ∀ c ∈ toC n, special c = false

/-- the lines of a block: 16 bytes each -/
def hexLines (data : List UInt8) : CStr :=
  if h : data = [] then [] else hex2Str (data.take 16) ++ '\n' :: hexLines (data.drop 16)
termination_by data.length
decreasing_by
  have : data.length ≠ 0 := fun h' => h (List.eq_nil_of_length_eq_zero h')
  simp; omega

/-- the text of a stored value (`none`: it has none, or the library prints something else, see `C54_int64_false`) -/
def dataText (gm : Gm) (fltText : List UInt8 → CStr) (d : Data) : Option CStr :=
  if d.type = STRING then some (toC (d.bytes.takeWhile (· ≠ 0)))
  else if d.type = BLOB then some (text64 (d.bytes.drop 4))
  else if d.type = HEX then some (hexLines (d.bytes.drop 4))
  else if d.type = INT64 ∨ d.type = UINT64 then none
  else
    match chunkText gm fltText d.type d.bytes with
    | .ok s => some s
    | _ => none

mutual
/-- what the dump of a tree needs: names that can be written in tags (`et-tecera` is reserved), texts of all values without `<` and, for attributes, without `"`; attributes are texts, nothing, or
have four bytes -/
def Printable (gm : Gm) (fltText : List UInt8 → CStr) (flt : CStr → List UInt8) (pt : BStr → XBT) : Elem → Prop
  | .mk name value params children =>
    GoodName name ∧ name ≠ b8 "et-tecera" ∧
    (∀ p ∈ params, GoodName p.1 ∧ ((attrData flt (pt p.1) p.2).type ∈ [NULL, STRING] ∨ is4 (attrData flt (pt p.1) p.2).type = true) ∧
      ∃ s, dataText gm fltText (attrData flt (pt p.1) p.2) = some s ∧ '<' ∉ s ∧ '"' ∉ s ∧ '\x00' ∉ s) ∧
    (∃ d s, nodeData flt value = some d ∧ dataText gm fltText d = some s ∧ '<' ∉ s ∧ '\x00' ∉ s) ∧
    PrintableAll gm fltText flt pt children
def PrintableAll (gm : Gm) (fltText : List UInt8 → CStr) (flt : CStr → List UInt8) (pt : BStr → XBT) : List Elem → Prop
  | [] => True
  | e :: es => Printable gm fltText flt pt e ∧ PrintableAll gm fltText flt pt es
end

end BX.Spec
