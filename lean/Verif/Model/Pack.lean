import Verif.Model.Create
import Verif.Model.Sort
import Verif.Model.Sha1
/-
Removing duplicate sub-trees from a document. Models src/bin_xml_packer.cpp:45-59, 85-100, 102-243, 245-310 and the call in
`Make_xb`, src/bin_xml_creator.cpp:371-443. Assertions are compiled out; where the code goes on after a violated one, the model
reports `fail`. The hash is a parameter `H` of the model: the bytes of a node to the bytes written to `node_hashes`.
-/
namespace BX
open XBT

/-- a `hash192_t` of which only the beginning was written, bin_xml_packer.cpp:117-118, 155 -/
def hash192 (h : List UInt8) : List UInt8 := (h ++ List.replicate 24 0).take 24

/-- the hash the code uses: SHA-1 (see C23; the result does not depend on the content of the work buffer, here zeros) -/
def sha1Hash (bs : List UInt8) : List UInt8 := shaOfChunks (List.replicate 64 0) [bs]

/-- the `X->length` bytes of the item at `x` -/
def Img.nodeBytes (s : Img) (x : Int) : Out (List UInt8) := do
  let len ← s.length x
  if len < 0 then .ub else s.rd x len.toNat

/-- `node_links[filled_links++] = my_rel + children[ch]`, bin_xml_packer.cpp:140-150; `n` children are left, `ca` is the place of
the next pointer -/
def Img.kidLinks (s : Img) (x : Int) : Nat → Int → Out (List Int)
  | 0, _ => return []
  | n+1, ca => do
    let r ← s.i32 ca
    let rest ← s.kidLinks x n (ca + 4)
    return (x + r) :: rest

/-- the links to the children, bin_xml_packer.cpp:138-153 -/
def Img.links (s : Img) (x : Int) : Out (List Int) := do
  let cc ← s.childcount x
  if cc > 0 then do
    let ca ← s.childrenAt x
    s.kidLinks x cc.toNat ca
  else return []

/-- the loop filling `node_links` and `node_hashes`, bin_xml_packer.cpp:128-158: `done` are the entries with a hash, `todo` the
links without one; both arrays have `total` entries. -/
def collect (H : List UInt8 → List UInt8) (s : Img) (total : Nat) : Nat → List (List UInt8 × Int) → List Int → Out (List (List UInt8 × Int))
  | _, done, [] => .ok done
  | 0, _, _ :: _ => .ub
  | fuel+1, done, x :: todo => do
    let kids ← s.links x
    if total < done.length + 1 + todo.length + kids.length then .ub
    else do
      let bs ← s.nodeBytes x
      collect H s total fuel (done ++ [(hash192 (H bs), x)]) (todo ++ kids)

/-- `_SortingNodes::compare`, bin_xml_packer.cpp:45-59: by hash, then by address -/
def nodeCmp (a b : List UInt8 × Int) : Int :=
  let r := memcmpB (hash192 a.1) (hash192 b.1)
  if r ≠ 0 then r else if a.2 < b.2 then -1 else if a.2 > b.2 then 1 else 0

/-- the loop making references, bin_xml_packer.cpp:205-238; `first` is the last node that was not a copy -/
def markLoop (limit : Nat) : (List UInt8 × Int) → List (List UInt8 × Int) → Mem → Out Mem
  | _, [], m => .ok m
  | first, n :: rest, m =>
    if hash192 n.1 = hash192 first.1 then
      if n.2 < 0 then .ub
      else do
        let m ← put limit m n.2.toNat (leN 2 (toU 16 (-7)))
        let m ← put limit m (n.2.toNat + 4) (le32 (first.2 - n.2))
        markLoop limit first rest m
    else markLoop limit n rest m

/-- `MarkReferences`, bin_xml_packer.cpp:102-243. The index array is sorted there instead of the entries; entries that were not
filled stay zero. -/
def markReferences (H : List UInt8 → List UInt8) (limit total : Nat) (m : Mem) : Out Mem := do
  let done ← collect H ⟨m, limit⟩ total total [] [0]
  let table := done ++ List.replicate (total - done.length) (hash192 [], 0)
  let sorted ← mergesortR2 nodeCmp table table
  match sorted with
  | [] => .ub
  | first :: rest => markLoop limit first rest m

/-- the loop over the children in `PackNode`, bin_xml_packer.cpp:289-293: `pk` is the recursive call (source, copy, write pointer
and node to source, copy, write pointer and address of the copy), `x`/`y` the item and its copy, `sa`/`da` the places of the next
child pointer in the item and in the copy, `n` children are left -/
def packChildren (limit dst : Nat) (pk : Mem → Mem → Nat → Int → Out (Mem × Mem × Nat × Int)) (x : Int) (y : Nat) :
    Nat → Mem → Mem → Nat → Int → Int → Out (Mem × Mem × Nat)
  | 0, S, D, wp, _, _ => .ok (S, D, wp)
  | n+1, S, D, wp, sa, da => do
    let r ← (⟨S, limit⟩ : Img).i32 sa
    let k ← pk S D wp (x + r)
    if da < 0 then .ub
    else do
      let D ← put dst k.2.1 da.toNat (le32 (k.2.2.2 - y))
      packChildren limit dst pk x y n k.1 D k.2.2.1 (sa + 4) (da + 4)

/-- the middle part of `PackNode`, bin_xml_packer.cpp:277-299: the children of the copied item or, without children, its `len`
bytes are skipped -/
def packInner (limit dst : Nat) (pk : Mem → Mem → Nat → Int → Out (Mem × Mem × Nat × Int)) (x : Int) (y len : Nat) (S D : Mem) : Out (Mem × Mem × Nat) := do
  let cc ← (⟨S, limit⟩ : Img).childcount x
  if cc > 0 then do
    let pc ← (⟨S, limit⟩ : Img).paramcount x
    let r0 ← (⟨S, limit⟩ : Img).i32 (x + 12 + 8 * pc)
    if y + r0 < 0 then .ub
    else packChildren limit dst pk x y cc.toNat S D (y + r0).toNat (x + 12 + 8 * pc) (y + 12 + 8 * pc)
  else return (S, D, y + len)

/-- `PackNode`, bin_xml_packer.cpp:245-310: source `S` (a buffer of `limit` bytes), copy `D` (`dst` bytes), write pointer and node
`x` to the new source, copy, write pointer and the address of the packed node. `fuel` bounds the depth of the recursion. -/
def packNode (limit dst : Nat) : Nat → Mem → Mem → Nat → Int → Out (Mem × Mem × Nat × Int)
  | 0, _, _, _, _ => .ub
  | fuel+1, S, D, wp, x => do
    let s : Img := ⟨S, limit⟩
    let y := aa wp
    let nm ← s.name x
    if nm = -8 then .fail
    else if nm = -7 then do
      let ref ← s.i32 (x + 4)
      let nm2 ← s.name (x + ref)
      if nm2 ≠ -8 then .fail
      else do
        let r ← s.i32 (x + ref + 4)
        return (S, D, y, r)
    else do
      let bs ← s.nodeBytes x
      let D ← put dst D y bs
      let r ← packInner limit dst (packNode limit dst fuel) x y bs.length S D
      let S ← put limit r.1 x.toNat (leN 2 (toU 16 (-8)))
      let S ← put limit S (x.toNat + 4) (le32 y)
      let D ← put dst r.2.1 (y + 8) (le32 ((r.2.2 : Int) - y))
      return (S, D, r.2.2, y)

/-- `Pack`, bin_xml_packer.cpp:85-100: `total` nodes in the first `dst` bytes of the buffer `m` of `limit` bytes; `d0` is the
content of the new buffer. The new content of the buffer and the packed size. -/
def pack (H : List UInt8 → List UInt8) (limit total dst : Nat) (m d0 : Mem) : Out (Mem × Nat) := do
  let S ← markReferences H limit total m
  let r ← packNode limit dst (total + 1) S d0 0 0
  let len ← (⟨r.2.1, dst⟩ : Img).length r.2.2.2
  if len < 0 then .ub
  else do
    let bs ← (⟨r.2.1, dst⟩ : Img).rd 0 len.toNat
    let m ← put limit r.1 0 bs
    return (m, len.toNat)

mutual
/-- number of elements of the tree, counted by `FirstPassEvent`, bin_xml_creator.cpp:382, 537 -/
def Elem.count : Elem → Nat
  | .mk _ _ _ children => 1 + countL children
def countL : List Elem → Nat
  | [] => 0
  | e :: es => e.count + countL es
end

/-- `Make_xb` with packing, bin_xml_creator.cpp:371-443: `m0` and `d0` are the contents of the fresh buffers -/
def makePacked (H : List UInt8 → List UInt8) (flt : CStr → List UInt8) (filename : BStr) (mtime : Int) (filesize : Nat) (m0 d0 : Mem) (e : Elem) : Out Img := do
  let c : Ctx := ⟨regAll (tagOps e), regAll (paramOps e), flt, 1024 + filesize * 4⟩
  let r ← fillData c filename mtime e m0
  let p ← pack H c.limit (4 + e.count) r.2 r.1 d0
  return ⟨p.1, aa p.2⟩

end BX
