import Verif.Model.Jsmn
/-
JSON texts: a value with the white space around its parts, the text it stands for, and what is inside it. Nothing here knows how a text is tokenized.
-/
namespace BX.Spec
open BX

mutual
/-- a JSON value: a string or a primitive with its text, an array or an object with its members -/
inductive JV where
  | str (s : BStr)
  | prim (s : BStr)
  | arr (pad : BStr) (es : JEs)
  | obj (pad : BStr) (ms : JMs)
/-- elements of an array: white space, value, white space -/
inductive JEs where
  | nil
  | cons (w : BStr) (v : JV) (w' : BStr) (rest : JEs)
/-- members of an object: white space, key, white space, (colon), white space, value, white space -/
inductive JMs where
  | nil
  | cons (w : BStr) (k : BStr) (w1 w2 : BStr) (v : JV) (w3 : BStr) (rest : JMs)
end

/-- a comma between members -/
def comma : Bool → BStr
  | true => []
  | false => [44]

def JEs.isNil : JEs → Bool | .nil => true | .cons .. => false
def JMs.isNil : JMs → Bool | .nil => true | .cons .. => false

mutual
/-- the text of a value -/
def JV.text : JV → BStr
  | .str s => 34 :: s ++ [34]
  | .prim s => s
  | .arr pad es => 91 :: pad ++ es.text ++ [93]
  | .obj pad ms => 123 :: pad ++ ms.text ++ [125]
def JEs.text : JEs → BStr
  | .nil => []
  | .cons w v w' rest => w ++ v.text ++ w' ++ comma rest.isNil ++ rest.text
def JMs.text : JMs → BStr
  | .nil => []
  | .cons w k w1 w2 v w3 rest => w ++ (34 :: k ++ [34]) ++ w1 ++ 58 :: w2 ++ v.text ++ w3 ++ comma rest.isNil ++ rest.text
end

/-- white space -/
def Blank (w : BStr) : Prop := ∀ c ∈ w, c = 9 ∨ c = 10 ∨ c = 13 ∨ c = 32

/-- a hexadecimal digit -/
def JHexDigit (c : UInt8) : Prop := (48 ≤ c ∧ c ≤ 57) ∨ (65 ≤ c ∧ c ≤ 70) ∨ (97 ≤ c ∧ c ≤ 102)

/-- the text of a string between its quotes: plain characters and escape sequences -/
inductive StrText : BStr → Prop where
  | nil : StrText []
  | plain (c : UInt8) (s : BStr) (h0 : c ≠ 0) (hq : c ≠ 34) (hb : c ≠ 92) (h : StrText s) : StrText (c :: s)
  | esc (c : UInt8) (s : BStr) (hc : c ∈ [34, 47, 92, 98, 102, 110, 114, 116]) (h : StrText s) : StrText (92 :: c :: s)
  | uni (a b c d : UInt8) (s : BStr) (ha : JHexDigit a) (hb : JHexDigit b) (hc : JHexDigit c) (hd : JHexDigit d) (h : StrText s) : StrText (92 :: 117 :: a :: b :: c :: d :: s)

/-- the text of a primitive (numbers, `true`, `false`, `null`, and whatever has no white space, brackets at its start, quotes at its start, or separators) -/
def PrimText (s : BStr) : Prop :=
  s ≠ [] ∧ (∀ c ∈ s, 32 < c ∧ c < 127 ∧ c ≠ 44 ∧ c ≠ 58 ∧ c ≠ 93 ∧ c ≠ 125) ∧ ∀ c, s.head? = some c → c ≠ 34 ∧ c ≠ 91 ∧ c ≠ 123

mutual
/-- the texts inside a value are what they should be -/
def JV.Ok : JV → Prop
  | .str s => StrText s
  | .prim s => PrimText s
  | .arr pad es => Blank pad ∧ es.Ok
  | .obj pad ms => Blank pad ∧ ms.Ok
def JEs.Ok : JEs → Prop
  | .nil => True
  | .cons w v w' rest => Blank w ∧ v.Ok ∧ Blank w' ∧ rest.Ok
def JMs.Ok : JMs → Prop
  | .nil => True
  | .cons w k w1 w2 v w3 rest => Blank w ∧ StrText k ∧ Blank w1 ∧ Blank w2 ∧ v.Ok ∧ Blank w3 ∧ rest.Ok
end

mutual
/-- the number of values and keys in a value, itself included -/
def JV.count : JV → Nat
  | .str _ => 1
  | .prim _ => 1
  | .arr _ es => 1 + es.count
  | .obj _ ms => 1 + ms.count
def JEs.count : JEs → Nat
  | .nil => 0
  | .cons _ v _ rest => v.count + rest.count
def JMs.count : JMs → Nat
  | .nil => 0
  | .cons _ _ _ _ v _ rest => 1 + v.count + rest.count
end

mutual
/-- the depths of the values in a value, itself first, in the order of the text -/
def JV.depths : JV → Nat → List Nat
  | .str _, n => [n]
  | .prim _, n => [n]
  | .arr _ es, n => n :: es.depths (n + 1)
  | .obj _ ms, n => n :: ms.depths (n + 1)
def JEs.depths : JEs → Nat → List Nat
  | .nil, _ => []
  | .cons _ v _ rest, n => v.depths n ++ rest.depths n
def JMs.depths : JMs → Nat → List Nat
  | .nil, _ => []
  | .cons _ _ _ _ v _ rest, n => v.depths n ++ rest.depths n
end

def JEs.length : JEs → Nat | .nil => 0 | .cons _ _ _ rest => rest.length + 1
def JMs.length : JMs → Nat | .nil => 0 | .cons _ _ _ _ _ _ rest => rest.length + 1

mutual
/-- no array is a member of an object with an empty key -/
def JV.KeysNamed : JV → Prop
  | .str _ => True
  | .prim _ => True
  | .arr _ es => es.KeysNamed
  | .obj _ ms => ms.KeysNamed
def JEs.KeysNamed : JEs → Prop
  | .nil => True
  | .cons _ v _ rest => v.KeysNamed ∧ rest.KeysNamed
def JMs.KeysNamed : JMs → Prop
  | .nil => True
  | .cons _ k _ _ v _ rest => (k = [] → ∀ pad es, v ≠ .arr pad es) ∧ v.KeysNamed ∧ rest.KeysNamed
end

/-- the name of an element of an array by the name of the array: without the final `s`, without `List`, or with `Item` -/
def singular (s : BStr) : BStr :=
  if s.getLast? = some 115 then s.dropLast else if s.length > 4 ∧ s.drop (s.length - 4) = b8 "List" then s.take (s.length - 4) else s ++ b8 "Item"

mutual
/-- the element `h` of the opened document shows the value, with the given name: a string or a primitive has its text as value and no children; an array or an object has no value and its children show
its members, each once and in order, a member of an object under its key. `inner` is
the name of the elements of the value if it is an array (nothing is said about names unless `named`): made from the key under which the array is found, a fixed name for an array inside an array, none for a document that is an array. -/
def JV.Shown (d : JDoc) (named : Prop) : JV → (name inner : Option BStr) → Nat → Prop
  | .str s, name, _, h => (named → d.getNodeName h = .ok name) ∧ d.getNodeValue h = .ok (some s) ∧ d.children h = .ok []
  | .prim s, name, _, h => (named → d.getNodeName h = .ok name) ∧ d.getNodeValue h = .ok (some s) ∧ d.children h = .ok []
  | .arr _ es, name, inner, h =>
    (named → d.getNodeName h = .ok name) ∧ d.getNodeValue h = .ok none ∧
    ∃ hs, d.children h = .ok hs ∧ hs.Pairwise (· < ·) ∧ es.Shown d named inner hs
  | .obj _ ms, name, _, h =>
    (named → d.getNodeName h = .ok name) ∧ d.getNodeValue h = .ok none ∧
    ∃ hs, d.children h = .ok hs ∧ hs.Pairwise (· < ·) ∧ ms.Shown d named hs
def JEs.Shown (d : JDoc) (named : Prop) : JEs → Option BStr → List Nat → Prop
  | .nil, _, hs => hs = []
  | .cons _ v _ rest, inner, hs => ∃ h hs', hs = h :: hs' ∧ v.Shown d named inner (some (b8 "__ARRAY_ITEM_NAME__")) h ∧ rest.Shown d named inner hs'
def JMs.Shown (d : JDoc) (named : Prop) : JMs → List Nat → Prop
  | .nil, hs => hs = []
  | .cons _ k _ _ v _ rest, hs => ∃ h hs', hs = h :: hs' ∧ v.Shown d named (some k) (some (singular k)) h ∧ rest.Shown d named hs'
end

end BX.Spec
