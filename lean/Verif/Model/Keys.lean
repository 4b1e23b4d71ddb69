import Verif.Model.Copy
/-
Elements that are found by the values of their key attributes: comparing and copying the keys of an item of a file and copying along a path of
items. Models parts of src/bin_write_plugin.cpp and of src/bin_xml_types.cpp.
-/
namespace BX
open XBT

/-- the conversion of a text in `XBT_Equal`, bin_xml_types.cpp:1121-1128 and 1132-1139, in a buffer of its own, whose address counts as 0 because
`alloca` aligns it; a text without end is undefined. `none`: it cannot be converted. -/
def convText (flt : CStr → List UInt8) (bs : List UInt8) (t : XBT) : Out (Option (List UInt8)) :=
  if (cPrefix bs).length = bs.length then .ub
  else
    match fromString flt (toC (cPrefix bs)) t 0 (bs.length + 64) with
    | .ok w => .ok (some w.bytes)
    | .fail => .ok none
    | .ub => .ub

/-- the sizes and the bytes are compared, bin_xml_types.cpp:1144-1145: `bs` with the value of an element -/
def Pool.sameBytes (P : Pool) (bs : List UInt8) (B : DataRef) : Out Bool :=
  if (bs.length : Int) ≠ B.size then .ok false
  else do
    let c ← P.img.rd B.data bs.length
    return decide (bs = c)

/-- `XBT_Equal`, bin_xml_types.cpp:1117-1146, of data `A` of a file and the value `B` of an element. (For a type byte that is no type: the types
differ and `XBT_FromString` knows no such type.) -/
def Pool.equalData (flt : CStr → List UInt8) (P : Pool) (A : Data) (B : DataRef) : Out Bool :=
  match B.type with
  | none => .ok false
  | some t =>
    if A.type = t then P.sameBytes A.bytes B
    else if A.type = STRING then do
      let c ← convText flt A.bytes t
      match c with
      | none => return false
      | some bs => P.sameBytes bs B
    else if t = STRING then do
      let bs ← P.img.rd B.data B.size.toNat
      let c ← convText flt bs A.type
      match c with
      | none => return false
      | some w => return decide (w = A.bytes)
    else return false

/-- one key of the item `x`, bin_write_plugin.cpp:1184-1205: the first attribute of `e` with its name is looked for (the loop is the one of
`findAttr`) and the values are compared. A value of the item that has no size is not modelled. -/
def Pool.keyEqual (flt : CStr → List UInt8) (f : Img) (P : Pool) (e x a nm : Int) (fuel : Nat) : Out Bool := do
  let c ← P.find e 20 nm fuel
  match c with
  | none => return false
  | some c => do
    let d ← f.pGetData x a
    let r ← P.getData c
    P.equalData flt d r

/-- the loop over the attributes of the item, bin_write_plugin.cpp:1177-1208: `n` are left, the next is the `i`-th, `ck` are the keys that were
checked. At most 16 keys are remembered. `none`: the result is `false`. A missing attribute is a null pointer that is used. -/
def Pool.keysLoop (flt : CStr → List UInt8) (isKey : Int → Bool) (f : Img) (P : Pool) (e x : Int) (fuel : Nat) : Nat → Int → List Int → Out (Option (List Int))
  | 0, _, ck => return some ck
  | n+1, i, ck => do
    let a ← f.getParamByIndex x i
    match a with
    | none => .ub
    | some a => do
      let nm ← f.pName a
      if isKey nm = false then P.keysLoop flt isKey f e x fuel n (i + 1) ck
      else do
        let eq ← P.keyEqual flt f e x a nm fuel
        if eq = false then return none
        else if 16 ≤ ck.length then return none
        else P.keysLoop flt isKey f e x fuel n (i + 1) (ck ++ [nm])

/-- the loop over the attributes of the element, bin_write_plugin.cpp:1212-1223: every key is one of those that were checked -/
def Pool.knownLoop (isKey : Int → Bool) (P : Pool) (e first : Int) (ck : List Int) : Nat → Int → Out Bool
  | 0, _ => .ub
  | fuel+1, c => do
    let i ← P.eId c
    if isKey i = true ∧ i ∉ ck then return false
    else do
      let nx ← P.eNext c
      if nx = first then return true
      else do
        let b ← P.bwe e nx
        P.knownLoop isKey e first ck fuel b

/-- `EqualKeys`, bin_write_plugin.cpp:1166-1227, of the element `e` and the item `x` of the file `f`; `isKey` is `ParamIsKey` -/
def Pool.equalKeys (flt : CStr → List UInt8) (isKey : Int → Bool) (f : Img) (P : Pool) (e x : Int) (fuel : Nat) : Out Bool := do
  let n ← f.paramcount x
  let ck ← P.keysLoop flt isKey f e x fuel n.toNat 0 []
  match ck with
  | none => return false
  | some ck => do
    let first ← P.eAttr e
    if first = 0 then return true
    else do
      let c ← P.bwe e first
      P.knownLoop isKey e first ck fuel c

/-- the loop of `CopyKeys`, bin_write_plugin.cpp:1157-1162: like the one of `CopyAll`, for keys only -/
def Pool.copyKeyAttrs (flt : CStr → List UInt8) (isKey : Int → Bool) (f : Img) (dst x : Int) : Nat → Int → Pool → Out (Pool × Bool)
  | 0, _, P => return (P, true)
  | n+1, i, P => do
    let a ← f.getParamByIndex x i
    match a with
    | none => .ub
    | some a => do
      let nm ← f.pName a
      if isKey nm = false then P.copyKeyAttrs flt isKey f dst x n (i + 1)
      else do
        let r ← P.attrCopy flt f dst x a
        if r.2 then r.1.copyKeyAttrs flt isKey f dst x n (i + 1) else return (r.1, false)

/-- `CopyKeys`, bin_write_plugin.cpp:1150-1164. `true`: it returned the element. -/
def Pool.copyKeys (flt : CStr → List UInt8) (isKey : Int → Bool) (f : Img) (dst x : Int) (P : Pool) : Out (Pool × Bool) := do
  let ok ← P.copyChecks f dst x
  if ok = false then return (P, false)
  else do
    let n ← f.paramcount x
    P.copyKeyAttrs flt isKey f dst x n.toNat 0

/-- `BW_plugin::BWE`, bin_write_plugin.cpp:2810-2816; the null pointer it may return is used -/
def Pool.elemAt (P : Pool) (off : Int) : Out Int := if 0 ≤ off ∧ off + 24 ≤ P.fileSize then .ok off else .ub

/-- the loop over the children in `CopyPath_`, bin_write_plugin.cpp:2714-2724 -/
def Pool.findKeysLoop (flt : CStr → List UInt8) (isKey : Int → Bool) (f : Img) (P : Pool) (first x : Int) (n : Nat) : Nat → Int → Out (Option Int)
  | 0, _ => .ub
  | fuel+1, c => do
    let eq ← P.equalKeys flt isKey f c x n
    if eq then return some c
    else do
      let nx ← P.eNext c
      if nx = first then return none
      else do
        let b ← P.elemAt nx
        P.findKeysLoop flt isKey f first x n fuel b

/-- the search for the item `x` among the children of `p`, bin_write_plugin.cpp:2709-2725 -/
def Pool.findKeys (flt : CStr → List UInt8) (isKey : Int → Bool) (f : Img) (P : Pool) (p x : Int) (fuel : Nat) : Out (Option Int) := do
  let first ← P.eChild p
  if first = 0 then return none
  else do
    let c ← P.elemAt first
    P.findKeysLoop flt isKey f first x fuel fuel c

/-- the copying at the end of the path, bin_write_plugin.cpp:2694-2704: the result of `CopyAll` or `CopyKeys` -/
def Pool.copyLast (E : Env) (flt : CStr → List UInt8) (isKey : Int → Bool) (f : Img) (whole : Bool) (fuel : Nat) (dst src : Int) (P : Pool) : Out (Pool × Bool) :=
  if whole then P.copyAll E flt f fuel dst src else P.copyKeys flt isKey f dst src

/-- the keys of an element on the path that is new, bin_write_plugin.cpp:2706 -/
def Pool.copyMid (flt : CStr → List UInt8) (isKey : Int → Bool) (f : Img) (copy : Bool) (dst src : Int) (P : Pool) : Out (Pool × Bool) :=
  if copy then P.copyKeys flt isKey f dst src else .ok (P, true)

/-- no memory for an element: `add` and `setRoot` ignore the null pointer; `CopyAll` refuses it, `CopyKeys` uses it -/
def Pool.noElem (whole : Bool) (xs : List Int) (P : Pool) : Out (Pool × Option Int) := if whole = true ∧ xs = [] then .ok (P, none) else .ub

/-- the loop of `CopyPath_`, bin_write_plugin.cpp:2687-2734, with the items that are left -/
def Pool.pathLoop (E : Env) (flt : CStr → List UInt8) (isKey : Int → Bool) (f : Img) (whole : Bool) (fuel : Nat) : List Int → Int → Int → Bool → Pool → Out (Pool × Option Int)
  | [], src, dst, copy, P =>
    if copy then do
      let r ← P.copyLast E flt isKey f whole fuel dst src
      return (r.1, if r.2 then some dst else none)
    else return (P, some dst)
  | x :: xs, src, dst, copy, P => do
    let r ← P.copyMid flt isKey f copy dst src
    if r.2 = false then return (r.1, none)
    else do
      let c ← r.1.findKeys flt isKey f dst x fuel
      match c with
      | some c => r.1.pathLoop E flt isKey f whole fuel xs x c false
      | none => do
        let nm ← f.name x
        let t ← r.1.plainTag E nm
        match t.2 with
        | none => t.1.noElem whole xs
        | some o => do
          let Q ← t.1.add dst (some (o : Int))
          Q.pathLoop E flt isKey f whole fuel xs x o true

/-- the element of the document that has to be the one of the first item, bin_write_plugin.cpp:2677-2681 -/
def Pool.pathFrom (E : Env) (flt : CStr → List UInt8) (isKey : Int → Bool) (f : Img) (whole : Bool) (fuel : Nat) (x : Int) (xs : List Int) (r : Int) (P : Pool) : Out (Pool × Option Int) := do
  let id ← P.eId r
  let nm ← f.name x
  if id ≠ nm then return (P, none)
  else do
    let eq ← P.equalKeys flt isKey f r x fuel
    if eq then P.pathLoop E flt isKey f whole fuel xs x r false else return (P, none)

/-- the first element in a root element `<transaction>`, bin_write_plugin.cpp:2667-2676 -/
def Pool.pathInside (E : Env) (flt : CStr → List UInt8) (isKey : Int → Bool) (f : Img) (whole : Bool) (fuel : Nat) (x : Int) (xs : List Int) (r : Int) (P : Pool) : Out (Pool × Option Int) := do
  let fc ← P.eChild r
  if fc = 0 then do
    let nm ← f.name x
    let t ← P.plainTag E nm
    match t.2 with
    | none => .ub
    | some o => do
      let off ← t.1.eOffset o
      let Q ← t.1.wr (r + 16) (le32 off)
      let o ← Q.elemAt off
      Q.pathLoop E flt isKey f whole fuel xs x o true
  else do
    let c ← P.elemAt fc
    P.pathFrom E flt isKey f whole fuel x xs c

/-- `CopyPath` (`whole`) and `CopyPathOnly`, bin_write_plugin.cpp:2635-2743, of the items `x :: xs`; `R` is the root of the file -/
def Pool.copyPath (E : Env) (flt : CStr → List UInt8) (isKey : Int → Bool) (f : Img) (R : Int) (whole : Bool) (fuel : Nat) (x : Int) (xs : List Int) (P : Pool) : Out (Pool × Option Int) :=
  if x ≠ R then return (P, none)
  else if P.root = 0 then do
    let nm ← f.name x
    let t ← P.plainTag E nm
    match t.2 with
    | none => t.1.noElem whole xs
    | some o => do
      let Q ← t.1.setRoot (some (o : Int))
      Q.pathLoop E flt isKey f whole fuel xs x o true
  else do
    let r ← P.elemAt P.root
    let id ← P.eId r
    let nm ← f.name x
    if id = -10 ∧ nm ≠ -10 then P.pathInside E flt isKey f whole fuel x xs r
    else P.pathFrom E flt isKey f whole fuel x xs r

end BX
