import Verif.Model.Image
/-
The descriptors and the mappings that the objects of the library take and give back. Models src/bin_xml.cpp:718-883 (`XB_reader`), src/bin_json_plugin.cpp:56-106 (`Bin_json_plugin`),
src/bin_write_plugin.cpp:1798-1924 (`BW_plugin`), src/bin_xml_creator.cpp:330-357, 448-530 (`Bin_xml_creator`).

The answers of the system calls are parameters of the calls. Messages are left out. What a call does with the contents of files is modelled elsewhere (Model/Image.lean, Model/Jsmn.lean,
Model/Open.lean, Model/Create.lean), here it is an answer, too. Linux closes a descriptor also when `close` reports an error.
-/
namespace BX

/-- the number of pages of `n` bytes: the system maps and unmaps whole pages -/
def pages (n : Nat) : Nat := (n + 4095) / 4096

/-- what a process holds: its open descriptors, and its mappings (number of the first page, number of pages) -/
structure Sys where
  fds : List Nat
  maps : List (Nat × Nat)
deriving DecidableEq, Repr

/-- what is left of a mapping when `n` pages from page `a` on are unmapped, munmap(2) -/
def cutMap (a n : Nat) (m : Nat × Nat) : List (Nat × Nat) :=
  (if m.1 < a then [(m.1, min m.2 (a - m.1))] else []) ++ (if a + n < m.1 + m.2 then [(max m.1 (a + n), m.1 + m.2 - max m.1 (a + n))] else [])

/-- `munmap`: the pages are no longer mapped, to whatever mappings they belong -/
def Sys.munmap (s : Sys) (a size : Nat) : Sys := { s with maps := s.maps.flatMap (cutMap a (pages size)) }

/-- `close` -/
def Sys.close (s : Sys) (fd : Nat) : Sys := { s with fds := s.fds.erase fd }

/-- `open` gives the descriptor `fd` -/
def Sys.open (s : Sys) (fd : Nat) : Sys := { s with fds := fd :: s.fds }

/-- `mmap` gives the address of the page `a` -/
def Sys.mmap (s : Sys) (a size : Nat) : Sys := { s with maps := (a, pages size) :: s.maps }

/-- `XB_reader`, bin_xml.h:185-193: `fd` (`none`: -1), `doc` (`none`: MAP_FAILED) and `size`, which is not negative after a conversion to `size_t` -/
structure Reader where
  fd : Option Nat
  doc : Option Nat
  size : Nat
deriving DecidableEq, Repr

/-- the constructor of a reader, bin_xml.cpp:720-728 -/
def Reader.new : Reader := ⟨none, none, 2 ^ 64 - 1⟩

/-- the answers for `XB_reader::Initialize`: is the conversion before the opening right, the descriptor (`none`: an error), the size of the file, the first page of the mapping, the checks of the
document -/
structure ReaderAns where
  conv : Bool
  fd : Option Nat
  size : Nat
  map : Option Nat
  valid : Bool
deriving Repr

/-- `XB_reader::Initialize`, bin_xml.cpp:751-827. The conversion of an XML or JSON file, 755-786, is a call of its own (of a creator) and here only an answer. -/
def Reader.init (k : ReaderAns) (r : Reader) (s : Sys) : Bool × Reader × Sys :=
  if ¬ k.conv then (false, r, s)
  else
    match k.fd with
    | none => (false, { r with fd := none }, s)
    | some fd =>
      match k.map with
      | none => (false, ⟨some fd, none, k.size⟩, s.open fd)
      | some a => (k.valid, ⟨some fd, some a, k.size⟩, (s.open fd).mmap a k.size)

/-- the answers for `Finalize`: are `munmap` and `close` right? -/
structure FinAns where
  unmaps : Bool
  closes : Bool
deriving Repr

/-- `XB_reader::Finalize`, bin_xml.cpp:829-854 -/
def Reader.fin (k : FinAns) (r : Reader) (s : Sys) : Bool × Reader × Sys :=
  let close (r : Reader) (s : Sys) : Bool × Reader × Sys :=
    match r.fd with
    | none => (true, r, s)
    | some fd => if k.closes then (true, { r with fd := none }, s.close fd) else (false, r, s.close fd)
  match r.doc with
  | none => close r s
  | some a => if k.unmaps then close { r with doc := none } (s.munmap a r.size) else (false, r, s)

/-- `Bin_json_plugin`, what it holds: the member `fd`, `source` (`none`: MAP_FAILED) and the size of the file, bin_json_plugin.h:13-18, bin_xml_creator.h:37 -/
structure JsonObj where
  fd : Option Nat
  source : Option Nat
  size : Int
deriving DecidableEq, Repr

/-- the constructor, bin_json_plugin.cpp:56-66, bin_xml_creator.cpp:40 -/
def JsonObj.new : JsonObj := ⟨none, none, -1⟩

/-- the answers for `Bin_json_plugin::Initialize`: the size of the file, the descriptor, the first page of the mapping, is it JSON? -/
structure JsonAns where
  size : Int
  fd : Option Nat
  map : Option Nat
  valid : Bool
deriving Repr

/-- `Bin_json_plugin::Initialize`, bin_json_plugin.cpp:88-167: the descriptor is kept in a variable of the function (line 94), the member `fd` is not changed -/
def JsonObj.init (k : JsonAns) (j : JsonObj) (s : Sys) : Bool × JsonObj × Sys :=
  let j := { j with size := k.size }
  if k.size ≤ 0 then (false, j, s)
  else
    match k.fd with
    | none => (false, j, s)
    | some fd =>
      match k.map with
      | none => (false, { j with source := none }, s.open fd)
      | some a => (k.valid, { j with source := some a }, (s.open fd).mmap a k.size.toNat)

/-- `updateFileSize`, bin_xml_creator.cpp:56-59, which `Make_xb` calls (397); `n`: the answer of `file_getsize` -/
def JsonObj.update (n : Int) (j : JsonObj) : JsonObj := { j with size := n }

/-- the destructor, bin_json_plugin.cpp:68-86; a size of 0 or less (as `size_t`) is refused by the system -/
def JsonObj.kill (j : JsonObj) (s : Sys) : Sys :=
  let s := match j.source with
    | none => s
    | some a => if j.size ≤ 0 then s else s.munmap a j.size.toNat
  match j.fd with
  | none => s
  | some fd => s.close fd

/-- the pointer `pool` of a `BW_plugin`: null, MAP_FAILED or a page -/
inductive PoolPtr where
  | null | failed | page (a : Nat)
deriving DecidableEq, Repr

/-- `BW_plugin`, what it holds, bin_write_plugin.h:255-268 -/
structure BwObj where
  fd : Option Nat
  pool : PoolPtr
  max : Nat
  ready : Bool
deriving DecidableEq, Repr

/-- the constructor, bin_write_plugin.cpp:1800-1814 -/
def BwObj.new (max : Nat) : BwObj := ⟨none, .null, max, false⟩

/-- the answers for `BW_plugin::Initialize`: the descriptor, is `fstat` right, and in the two passes: the first page of the mapping, the check 1948 of the sizes, is the file empty (or too small),
and the size in its header; at last, is the file made or accepted? -/
structure BwAns where
  fd : Option Nat
  stat : Bool
  map : Nat → Option Nat
  fits : Nat → Bool
  empty : Bool
  msize : Nat → Nat
  made : Bool

/-- the loop of `BW_plugin::Initialize`, bin_write_plugin.cpp:1859-1890, with `n` passes left: is it left by `break`? -/
def BwObj.passes (k : BwAns) : Nat → BwObj → Sys → Bool × BwObj × Sys
  | 0, b, s => (true, b, s)
  | n+1, b, s =>
    let i := 1 - n
    match k.map i with
    | none => (false, { b with pool := .failed }, s)
    | some a =>
      let b := { b with pool := .page a }
      let s := s.mmap a b.max
      if ¬ k.fits i then (false, b, s)
      else if k.empty then (true, b, s)
      else if k.msize i = b.max then (true, b, s)
      else
        let s := s.munmap a b.max
        let b := { b with pool := .null, max := k.msize i }
        if i < 1 then BwObj.passes k n b s else (false, b, s)

/-- `BW_plugin::Initialize`, bin_write_plugin.cpp:1834-1901 -/
def BwObj.init (k : BwAns) (b : BwObj) (s : Sys) : Bool × BwObj × Sys :=
  if b.ready then (true, b, s)
  else
    match k.fd with
    | none => (false, { b with fd := none }, s)
    | some fd =>
      let b := { b with fd := some fd }
      let s := s.open fd
      if ¬ k.stat then (false, b, s)
      else
        let r := b.passes k 2 s
        if ¬ r.1 then (false, r.2)
        else if ¬ k.made then (false, r.2)
        else (true, { r.2.1 with ready := true }, r.2.2)

/-- `BW_plugin::setMaxPoolSize`, bin_write_plugin.cpp:1827-1832 -/
def BwObj.setMax (n : Nat) (b : BwObj) : Bool × BwObj := if b.ready then (false, b) else (true, { b with max := n })

/-- `BW_plugin::Finalize`, bin_write_plugin.cpp:1903-1924, which the destructor calls (1816-1820); errors are only shown. `munmap` of MAP_FAILED is refused by the system. -/
def BwObj.fin (b : BwObj) (s : Sys) : BwObj × Sys :=
  let s := match b.fd with
    | none => s
    | some fd => s.close fd
  let s := match b.pool with
    | .page a => s.munmap a b.max
    | _ => s
  (⟨none, .null, b.max, false⟩, s)

/-- `Bin_xml_creator`, what it holds for `Append`: `dst_file` (`none`: -1), bin_xml_creator.h:88 -/
structure CreatorObj where
  dst : Option Nat
deriving DecidableEq, Repr

/-- the opening of the file in `Append`, bin_xml_creator.cpp:497-508; `fd`: the answer of `open`. The rest of `Append` is modelled in Model/Create.lean. -/
def CreatorObj.append (fd : Option Nat) (c : CreatorObj) (s : Sys) : Bool × CreatorObj × Sys :=
  match c.dst with
  | some _ => (true, c, s)
  | none =>
    match fd with
    | none => (false, c, s)
    | some fd => (true, ⟨some fd⟩, s.open fd)

/-- the writing of a file in `Make_xb`, bin_xml_creator.cpp:427-442 (and 409-421 without NDEBUG): `creat` and `close` in a variable of the function -/
def creatorWrite (fd : Option Nat) (s : Sys) : Sys :=
  match fd with
  | none => s
  | some fd => (s.open fd).close fd

/-- the end of the destructor, bin_xml_creator.cpp:349-353 -/
def CreatorObj.kill (c : CreatorObj) (s : Sys) : Sys :=
  match c.dst with
  | none => s
  | some fd => s.close fd

/-- an object of a process -/
inductive Obj where
  | gone
  | reader (r : Reader)
  | json (j : JsonObj)
  | bw (b : BwObj)
  | creator (c : CreatorObj)
deriving DecidableEq, Repr

/-- a call -/
inductive Act where
  | readerInit (k : ReaderAns)
  | readerFin (k : FinAns)
  | jsonInit (k : JsonAns)
  | jsonUpdate (n : Int)
  | bwInit (k : BwAns)
  | bwSetMax (n : Nat)
  | bwFin
  | append (fd : Option Nat)
  | write (fd : Option Nat)
  | kill

/-- a call of an object: its result, the object and what the process holds afterwards (`none`: there is no such method). The destructor of a reader does nothing, bin_xml.cpp:730-737. -/
def Obj.act (s : Sys) : Obj → Act → Option (Bool × Obj × Sys)
  | .reader r, .readerInit k => some ((r.init k s).1, .reader (r.init k s).2.1, (r.init k s).2.2)
  | .reader r, .readerFin k => some ((r.fin k s).1, .reader (r.fin k s).2.1, (r.fin k s).2.2)
  | .reader _, .kill => some (true, .gone, s)
  | .json j, .jsonInit k => some ((j.init k s).1, .json (j.init k s).2.1, (j.init k s).2.2)
  | .json j, .jsonUpdate n => some (true, .json (j.update n), s)
  | .json j, .kill => some (true, .gone, j.kill s)
  | .bw b, .bwInit k => some ((b.init k s).1, .bw (b.init k s).2.1, (b.init k s).2.2)
  | .bw b, .bwSetMax n => some ((b.setMax n).1, .bw (b.setMax n).2, s)
  | .bw b, .bwFin => some (true, .bw (b.fin s).1, (b.fin s).2)
  | .bw b, .kill => some (true, .gone, (b.fin s).2)
  | .creator c, .append fd => some ((c.append fd s).1, .creator (c.append fd s).2.1, (c.append fd s).2.2)
  | .creator c, .write fd => some (true, .creator c, creatorWrite fd s)
  | .creator c, .kill => some (true, .gone, c.kill s)
  | _, _ => none

/-- how a block of memory was taken -/
inductive Alloc where
  | malloc | newArr
deriving DecidableEq, Repr

/-- `free`: only for memory from `malloc` -/
def heapFree (h : List (Nat × Alloc)) (p : Nat) : Out (List (Nat × Alloc)) := if (p, .malloc) ∈ h then .ok (h.erase (p, .malloc)) else .ub

/-- `delete []`: only for memory from `new []`; `lax`: the compiler takes memory from `malloc`, too -/
def heapDelete (lax : Bool) (h : List (Nat × Alloc)) (p : Nat) : Out (List (Nat × Alloc)) :=
  if (p, .newArr) ∈ h then .ok (h.erase (p, .newArr)) else if lax ∧ (p, .malloc) ∈ h then .ok (h.erase (p, .malloc)) else .ub

/-- the memory of a creator: for the two kinds of symbols the table, the table of types and the copies of the names, and the buffer `data`, bin_xml_creator.h:80-95 -/
structure CreatorMem where
  tabs : List (Nat × Nat × List Nat)
  data : Nat
deriving DecidableEq, Repr

/-- a new block from `malloc` at `p` -/
def heapMalloc (h : List (Nat × Alloc)) (p : Nat) : List (Nat × Alloc) := (p, .malloc) :: h

/-- the memory that `Make_xb` takes and that stays with the creator: the tables (bin_xml_creator.cpp:453-454, 488-492), the names (1187, 1240) and the buffer (398) -/
def creatorTakes (c : CreatorMem) (h : List (Nat × Alloc)) : List (Nat × Alloc) :=
  heapMalloc (c.tabs.foldl (fun h t => t.2.2.foldl heapMalloc (heapMalloc (heapMalloc h t.1) t.2.1)) h) c.data

/-- the loop over the names in the destructor, bin_xml_creator.cpp:339-342 -/
def freeAll : List Nat → List (Nat × Alloc) → Out (List (Nat × Alloc))
  | [], h => return h
  | p :: ps, h => do freeAll ps (← heapFree h p)

/-- the loop over the two kinds of symbols in the destructor, bin_xml_creator.cpp:337-348; `data` is not mentioned there -/
def creatorFrees (lax : Bool) : List (Nat × Nat × List Nat) → List (Nat × Alloc) → Out (List (Nat × Alloc))
  | [], h => return h
  | (t, y, names) :: ts, h => do
    let h ← freeAll names h
    let h ← heapDelete lax h t
    let h ← heapDelete lax h y
    creatorFrees lax ts h

end BX
