import Verif.Model.Open
/-
The stores of the calls that change a writable document, one by one. Models src/bin_write_plugin.cpp:57-86, 103-162, 164-188, 1548-1581, 1629-1693 and 1988-2003.

The file is mapped with MAP_SHARED, so a process that is killed leaves in the file all the stores it has made. The stores are those of the source
in the order of the source; a compiler is free to reorder them, the model does not. A store of an aligned `int32_t`, `int16_t` or byte is
done or not; `memset`, `strcpy` and `memcpy` may be found half done, in any order.
-/
namespace BX
open XBT

inductive Store where
  /-- an aligned `int32_t` -/
  | word (a v : Int)
  /-- an aligned `int16_t` -/
  | half (a v : Int)
  | byte (a : Int) (b : UInt8)
  /-- `memset`, `strcpy` or `memcpy` -/
  | bytes (a : Int) (bs : List UInt8)
  /-- `pool->allocator = n` -/
  | alloc (n : Nat)
  /-- a field of a symbol table in the header; the table afterwards -/
  | tab (tags : Bool) (T : Tab16)

def Pool.store1 (P : Pool) : Store → Out Pool
  | .word a v => P.wr a (le32 v)
  | .half a v => P.wr a (leN 2 (toU 16 v))
  | .byte a b => P.wr a [b]
  | .bytes a bs => P.wr a bs
  | .alloc n => .ok { P with alloc := n }
  | .tab b T => .ok (P.setTab b T)

/-- the document after some stores -/
def Pool.stores (P : Pool) : List Store → Out Pool
  | [] => .ok P
  | s :: ss => do
    let P ← P.store1 s
    P.stores ss

/-- `C` is what a process leaves that is killed while it makes the stores `ss`: some of them are done, in order, and of the bytes of a
`memset`, `strcpy` or `memcpy` that is next some may be stored -/
def Pool.KilledIn (P : Pool) (ss : List Store) (C : Pool) : Prop :=
  ∃ done rest, ss = done ++ rest ∧ (P.stores done = .ok C ∨
    ∃ (a : Nat) (bs : List UInt8) (rest' : List Store) (Q : Pool) (m : Mem), rest = .bytes a bs :: rest' ∧ P.stores done = .ok Q ∧ C = { Q with mem := m } ∧
      ∀ i, m i = Q.mem i ∨ (a ≤ i ∧ i < a + bs.length ∧ i < Q.fileSize ∧ m i = bs.getD (i - a) 0))

/-- the stores of `BW_element::join`, bin_write_plugin.cpp:121-125 -/
def Pool.joinStores (P : Pool) (a b : Int) : Out (List Store) := do
  let ap ← P.ePrev a
  let bp ← P.ePrev b
  let ao ← P.eOffset a
  let bo ← P.eOffset b
  if ap = 0 ∨ bp = 0 ∨ ao = 0 ∨ bo = 0 then return []
  else do
    let x ← P.bwe a bp
    let y ← P.bwe a ap
    return [.word (a + 12) bp, .word (b + 12) ap, .word (x + 8) ao, .word (y + 8) bo]

/-- the stores of `BW_element::add`, bin_write_plugin.cpp:130-141 -/
def Pool.addStores (P : Pool) (p t : Int) : Out (List Store) := do
  let fl ← P.eFlags t
  let first ← P.img.i32 (p + listField fl)
  if first = 0 then do
    let off ← P.eOffset t
    return [.word (p + listField fl) off]
  else do
    let h ← P.bwe p first
    P.joinStores h t

/-- the stores of `BW_element::remove`, bin_write_plugin.cpp:143-162 (reading the links once; they are changed only by stores of the same values) -/
def Pool.removeStores (P : Pool) (p t : Int) : Out (List Store) := do
  let fl ← P.eFlags t
  let first ← P.img.i32 (p + listField fl)
  if first = 0 then return []
  else do
    let off ← P.eOffset t
    let nx ← P.eNext t
    let pv ← P.ePrev t
    let x ← P.bwe p pv
    let y ← P.bwe p nx
    return (if first = off then [.word (p + listField fl) (if nx = off ∧ pv = off then 0 else nx)] else []) ++
      [.word (x + 8) nx, .word (y + 12) pv, .word (t + 12) off, .word (t + 8) off, .byte (t + 6) (fl ||| 8)]

/-- the stores of `BW_element::replace`, bin_write_plugin.cpp:164-188, of an element that is not the only one in its list -/
def Pool.replaceStores (P : Pool) (p old new : Int) : Out (List Store) := do
  let no ← P.eOffset new
  let on ← P.eNext old
  let op ← P.ePrev old
  let oo ← P.eOffset old
  let fl ← P.eFlags old
  let x ← P.bwe p on
  let y ← P.bwe p op
  let c ← P.eChild p
  let a ← P.eAttr p
  return [.word (new + 8) on, .word (new + 12) op, .word (x + 12) no, .word (y + 8) no, .byte (old + 6) (fl ||| 8), .word (old + 12) oo, .word (old + 8) oo] ++
    (if c = oo then [.word (p + 16) no] else []) ++ (if a = oo then [.word (p + 20) no] else [])

/-- the stores of `allocate` and `allocate8`, bin_write_plugin.cpp:1629-1661, for a request that is served, and the offset of the block -/
def Pool.allocStores (P : Pool) (t : XBT) (size : Nat) : List Store × Nat :=
  if xalign t = 8 then ([.alloc (aa8 P.alloc), .alloc (aa8 P.alloc + aa8 size), .bytes (aa8 P.alloc : Nat) (List.replicate (aa8 size) 0)], aa8 P.alloc)
  else ([.alloc (P.alloc + aa size), .bytes (P.alloc : Nat) (List.replicate (aa size) 0)], P.alloc)

/-- the request can be served without more space -/
def Pool.Room (P : Pool) (t : XBT) (size : Nat) : Prop := if xalign t = 8 then aa8 P.alloc + aa8 size ≤ P.limit else P.alloc + aa size ≤ P.limit

/-- the stores of `new_element`, `init` and of the value, bin_write_plugin.cpp:1685-1690, 57-86 (see `Pool.make`), where there is room -/
def Pool.makeStores (P : Pool) (id : Int) (t : XBT) (size : Nat) (flags : UInt8) (off : Nat) (bs : List UInt8) : List Store :=
  let r := P.allocStores t (24 + (size2 t size).toNat)
  r.1 ++ [.byte (r.2 + 7) t.code, .word (r.2 + 12) r.2, .word (r.2 + 8) r.2, .word r.2 r.2] ++
    (if isVarsize t then [.word (r.2 + 24) (size2 t size - 4)] else []) ++
    [.word r.2 r.2, .half (r.2 + 4) id, .byte (r.2 + 7) t.code, .byte (r.2 + 6) flags, .word (r.2 + 8) r.2, .word (r.2 + 12) r.2, .word (r.2 + 16) 0, .word (r.2 + 20) 0] ++
    [.bytes (r.2 + 24 + off) bs]

/-- the stores of `registerTag` and `registerParam`, bin_write_plugin.cpp:2102-2103, 2124-2136, 2145-2146, 2169-2182, for a new symbol of a table whose names
are at the end of the pool (so that `Open` has nothing to do), where there is room -/
def Pool.registerStores (P : Pool) (tags : Bool) (name : BStr) (t : XBT) : List Store :=
  let T := (P.startNames tags).tab tags
  let r := P.allocStores NULL (3 + name.length + 1)
  (if (P.tab tags).names = 0 then [.tab tags T] else []) ++ r.1 ++
    [.tab tags { T with maxId := T.maxId + 1 }, .half r.2 (T.maxId + 1), .byte (r.2 + 2) t.code, .bytes (r.2 + 3) (name ++ [0])]

/-- the stores of the loop of `makeTable`, bin_write_plugin.cpp:1563-1577, see `Pool.indexLoop`; a loop that stops early is not among the calls `Pool.tableStores` is for -/
def Pool.indexStores (maxId : Int) (index stop : Nat) : Nat → Pool → Nat → Out (List Store)
  | 0, _, _ => .ok []
  | n+1, P, start =>
    if stop ≤ start then .ok []
    else do
      let id ← P.img.i16 start
      if id < 0 ∨ maxId < id then .ok []
      else do
        let P ← P.store1 (.word (index + 4 * id) start)
        let s ← P.img.str (start + 3)
        let ss ← Pool.indexStores maxId index stop n P (aa (start + 3 + s.length + 1))
        return .word (index + 4 * id) start :: ss

/-- the stores of `makeTable`, bin_write_plugin.cpp:1548-1581, for a table with symbols and without an index, where there is room. (The store of 0 into `index` and that of
`max_id` by `getNamesSize`, which store what is there, are left out.) -/
def Pool.tableStores (P : Pool) (tags : Bool) : Out (List Store) := do
  let r := P.allocStores NULL (4 * ((P.tab tags).maxId + 1)).toNat
  let Q ← P.stores r.1
  let s ← Q.namesSize (Q.tab tags)
  let ws ← Pool.indexStores s.2.maxId r.2 (s.2.names + s.1) (s.2.maxId + 1).toNat Q s.2.names
  return r.1 ++ ws ++ [.tab tags { s.2 with index := r.2 }]

/-- the files that a process leaves that is killed while `makeSpace`, bin_write_plugin.cpp:1988-2003, makes the file `new` bytes long: behind `ftruncate`,
and behind the store of `file_size` -/
def Pool.growFiles (P : Pool) (new : Nat) : List Img :=
  let m : Mem := fun i => if P.fileSize ≤ i ∧ i < new then 0 else P.mem i
  [⟨memPut m 0 P.header, new⟩, ⟨memPut m 0 { P with fileSize := new }.header, new⟩]

end BX
