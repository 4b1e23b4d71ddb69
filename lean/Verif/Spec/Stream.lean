import Verif.Spec.Source
import Verif.Spec.Value
import Verif.Spec.Codec
import Verif.Spec.Dump
import Verif.Model.Stream
/-
A small reader of XML that also gives the texts, and what a tree of a writable document looks like to it. The reader knows nothing about how the text is made. (It does not know declarations,
comments, CDATA sections and processing instructions, and it does not normalize white space inside attributes.)
-/
namespace BX.Spec
open BX XBT

/-- what is found in an XML text: an opened tag with its attributes, text, a closed tag -/
inductive Tok where
  | opened (name : CStr) (attrs : List (CStr × CStr))
  | chars (s : CStr)
  | closed (name : CStr)
deriving DecidableEq

/-- where the reader is: in a text, after `<`, in the name of an opening tag, after a part of it, in the name of an attribute, after its `=`, in its value, after `/`, in the name of a closing tag -/
inductive TokAt where
  | text (t : CStr)
  | lt
  | name (n : CStr)
  | inside (n : CStr) (as : List (CStr × CStr))
  | attr (n : CStr) (as : List (CStr × CStr)) (a : CStr)
  | eq (n : CStr) (as : List (CStr × CStr)) (a : CStr)
  | value (n : CStr) (as : List (CStr × CStr)) (a v : CStr)
  | slash (n : CStr) (as : List (CStr × CStr))
  | close (n : CStr)
deriving DecidableEq

/-- reading one character: where the reader is afterwards and what is completed by it (`none`: the text is not well formed) -/
def Tok.step : TokAt → Char → Option (TokAt × List Tok)
  | .text t, c => if c = '<' then some (.lt, [.chars t]) else some (.text (t ++ [c]), [])
  | .lt, c => if c = '/' then some (.close [], []) else if special c then none else some (.name [c], [])
  | .name n, c =>
    if c = '>' then some (.text [], [.opened n []])
    else if c = '/' then some (.slash n [], [])
    else if c = ' ' then some (.attr n [] [], [])
    else if special c then none else some (.name (n ++ [c]), [])
  | .inside n as, c =>
    if c = '>' then some (.text [], [.opened n as])
    else if c = '/' then some (.slash n as, [])
    else if c = ' ' then some (.attr n as [], [])
    else none
  | .attr n as a, c => if c = '=' then (if a = [] then none else some (.eq n as a, [])) else if special c then none else some (.attr n as (a ++ [c]), [])
  | .eq n as a, c => if c = '"' then some (.value n as a [], []) else none
  | .value n as a v, c => if c = '"' then some (.inside n (as ++ [(a, v)]), []) else if c = '<' then none else some (.value n as a (v ++ [c]), [])
  | .slash n as, c => if c = '>' then some (.text [], [.opened n as, .closed n]) else none
  | .close n, c => if c = '>' then (if n = [] then none else some (.text [], [.closed n])) else if special c then none else some (.close (n ++ [c]), [])

/-- reading a text -/
def Tok.scan : TokAt → CStr → Option (TokAt × List Tok)
  | q, [] => some (q, [])
  | q, c :: s =>
    match Tok.step q c with
    | none => none
    | some (q', ts) => (Tok.scan q' s).map fun r => (r.1, ts ++ r.2)

/-- the attributes with their entities replaced -/
def readAttrs : List (CStr × CStr) → Option (List (CStr × CStr))
  | [] => some []
  | a :: as => (readXml a.2).bind fun v => (readAttrs as).map fun r => (a.1, v) :: r

/-- white space -/
def blank (c : Char) : Bool := c = ' ' || c = '\t' || c = '\n' || c = '\r' || c = '\x0b' || c = '\x0c'

/-- a text without the white space around it -/
def strip (s : CStr) : CStr := ((s.dropWhile blank).reverse.dropWhile blank).reverse

/-- a text as one token, if there is more than white space -/
def textTok (s : CStr) : List Tok := if strip s = [] then [] else [.chars (strip s)]

/-- replacing the entities and removing the white space around texts -/
def Tok.decode : Tok → Option (List Tok)
  | .opened n as => (readAttrs as).map fun r => [.opened n r]
  | .chars s => (readXml s).map textTok
  | .closed n => some [.closed n]

def decodeAll : List Tok → Option (List Tok)
  | [] => some []
  | t :: ts => t.decode.bind fun a => (decodeAll ts).map fun b => a ++ b

/-- reading a whole document (`none`: it is not well formed) -/
def readDoc (s : CStr) : Option (List Tok) :=
  match Tok.scan (.text []) s with
  | some (.text t, ts) => decodeAll (ts ++ [.chars t])
  | _ => none

/-- the text of a value (`none`: it cannot be printed) -/
def valueText (gm : Gm) (fltText : List UInt8 → CStr) (d : Data) : Option CStr :=
  if d.type = STRING then some (toC (d.bytes.takeWhile (· ≠ 0)))
  else if d.type = BLOB then some (text64 (d.bytes.drop 4))
  else if d.type = HEX ∨ d.type = BLOB_STRING then none
  else
    match chunkText gm fltText d.type d.bytes with
    | .ok s => some s
    | _ => none

/-- the text of the value of an element or an attribute -/
def Doc.xmlOf (D : Doc) (txt : Data → Option CStr) (e : Nat) : CStr := (txt ⟨D.type e, D.val e⟩).getD []

/-- the name of an element or an attribute -/
def Doc.nameText (D : Doc) (b : Bool) (e : Nat) : CStr := toC ((D.nameOf b (D.id e)).getD [])

mutual
/-- what a reader of XML sees of a tree of a document: every element with its name and attributes, its children in order, and its text (without the white space around it) -/
def Doc.toks (D : Doc) (txt : Data → Option CStr) : ETree → List Tok
  | .node e ks =>
    .opened (D.nameText true e) ((D.forest.at' (.attrs e)).map fun a => (D.nameText false a, D.xmlOf txt a)) :: D.toksAll txt ks ++
      textTok (D.xmlOf txt e) ++ [.closed (D.nameText true e)]
def Doc.toksAll (D : Doc) (txt : Data → Option CStr) : List ETree → List Tok
  | [] => []
  | k :: ks => D.toks txt k ++ D.toksAll txt ks
end

/-- a value that can be printed: the bytes have the form of the type, which has a text -/
def PrintVal (txt : Data → Option CStr) (t : XBT) (v : List UInt8) : Prop :=
  (GoodVal t v ∨ (t = UNIX_DATE ∧ v.length = 4)) ∧ (txt ⟨t, v⟩).isSome = true

/-- an element (`b`) or attribute that can be printed as XML: all symbols of its kind have been registered, its name can be written in a tag, its value can be printed -/
def Doc.printable (D : Doc) (txt : Data → Option CStr) (b : Bool) (e : Nat) : Prop :=
  D.forest.tag e = b ∧ D.ready b = true ∧ D.syms b ≠ [] ∧ (∃ n, D.nameOf b (D.id e) = some n ∧ GoodName n) ∧ PrintVal txt (D.type e) (D.val e)

end BX.Spec
