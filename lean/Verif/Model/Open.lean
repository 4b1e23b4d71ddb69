import Verif.Model.Dict
/-
Closing a writable document and opening it again. Models src/bin_write_plugin.cpp:1422-1434, 1834-1924, 1926-1986, 2011-2023, 2060-2072 and
2240-2250, and the layout of the header, include/binary_xml/bin_write_plugin.h:80-113.

The file is mapped with MAP_SHARED, so the file is the memory of the pool, at any time and also when the process is killed. `open`, `fstat`,
`mmap` and `munmap` succeed in the model; `ftruncate` is `Env.trunc`.
-/
namespace BX
open XBT

/-- the identification in the header, bin_write_plugin.cpp:1938, 1958 -/
def poolIdent : BStr := b8 "binary_xml.pksoft.org"

/-- the bytes of a `BW_symbol_table_16B`, bin_write_plugin.h:80-86 -/
def encTab (T : Tab16) : List UInt8 := le32 T.maxId ++ le32 T.names ++ le32 T.index ++ le32 (if T.fast then 1 else 0)

/-- the bytes of the header of a pool, bin_write_plugin.h:96-113; `size` is set once (bin_write_plugin.cpp:1949), `reserved` and
`master_xb_size` stay zero -/
def Pool.header (P : Pool) : List UInt8 :=
  le32 92 ++ (poolIdent ++ [0, 0, 0]) ++ le32 0 ++ le32 P.fileSize ++ le32 P.mmapSize ++ le32 0 ++ le32 P.root ++ le32 0 ++ le32 P.alloc ++ le32 P.limit ++
    encTab P.tags ++ encTab P.params

/-- the file of a pool: what `Finalize`, bin_write_plugin.cpp:1903-1924, leaves behind (and what is left when the process ends without it) -/
def Pool.file (P : Pool) : Img := ⟨memPut P.mem 0 P.header, P.fileSize⟩

/-- a field of the header, 32 bits with a sign -/
def Img.field (f : Img) (a : Nat) : Int := ofU 32 (rdN (slice f.mem a 4))

/-- a symbol table in the header; a negative offset of names or index is not modelled any further (`none`) -/
def Img.tab16 (f : Img) (a : Nat) : Option Tab16 :=
  if f.field (a + 4) < 0 ∨ f.field (a + 8) < 0 then none
  else some ⟨f.field a, (f.field (a + 4)).toNat, (f.field (a + 8)).toNat, f.field (a + 12) % 2 = 1⟩

/-- the loop of `check`, bin_write_plugin.cpp:1428-1432; `n` entries are left -/
def Pool.checkLoop (P : Pool) (T : Tab16) (size : Nat) : Nat → Nat → Out Bool
  | 0, _ => return true
  | n+1, i => do
    let x ← P.img.i32 (T.index + 4 * i)
    if (T.names : Int) ≤ x ∧ x < T.names + size then P.checkLoop T size n (i + 1) else return false

/-- `BW_symbol_table_16B::check`, bin_write_plugin.cpp:1422-1434 -/
def Pool.checkTab (P : Pool) (tags : Bool) : Out (Pool × Bool) :=
  if (P.tab tags).index = 0 then return (P, true)
  else do
    let r ← P.namesSize (P.tab tags)
    let ok ← (P.setTab tags r.2).checkLoop r.2 r.1 (r.2.maxId + 1).toNat 0
    return (P.setTab tags r.2, ok)

/-- `if (!pool->tags.check(pool)) pool->tags.index = 0`, bin_write_plugin.cpp:1969-1972 -/
def Pool.checkIndex (P : Pool) (tags : Bool) : Out Pool := do
  let r ← P.checkTab tags
  return if r.2 then r.1 else r.1.setTab tags { r.1.tab tags with index := 0 }

/-- an open document: `BW_plugin`, bin_write_plugin.h:255-275; `check` is `check_only`, `failures` is `check_failures` -/
structure Plug where
  pool : Pool
  check : Bool
  failures : Nat

/-- `CheckExistingFile`, bin_write_plugin.cpp:1956-1986, of a file mapped for `map` bytes. A header with negative offsets is not
modelled any further. -/
def checkExisting (map : Nat) (f : Img) : Out (Option Plug) :=
  if slice f.mem 4 22 ≠ poolIdent ++ [0] ∨ f.field 28 ≠ 0 ∨ f.field 32 ≠ f.size ∨ f.field 56 ≠ f.field 32 ∨ f.field 52 < 92 ∨ f.field 56 < f.field 52 then return none
  else if f.field 44 < 0 then .ub
  else
    match f.tab16 60, f.tab16 76 with
    | some T, some A => do
      let P ← Pool.checkIndex ⟨f.mem, f.size, map, (f.field 44).toNat, (f.field 52).toNat, (f.field 56).toNat, T, A⟩ true
      let P ← P.checkIndex false
      return some ⟨P, true, 0⟩
    | _, _ => .ub

/-- `InitEmptyFile`, bin_write_plugin.cpp:1926-1954, of a file mapped for `map` bytes: only the header is cleared, and what
is behind the initial size of a file is cut off -/
def initEmpty (E : Env) (map : Nat) (f : Img) : Out (Option Plug) :=
  if E.trunc 0x4000 then return some ⟨{ Pool.empty map with mem := fun i => if 92 ≤ i ∧ i < f.size ∧ i < 0x4000 then f.mem i else 0 }, false, 0⟩ else return none

/-- `BW_plugin::Initialize`, bin_write_plugin.cpp:1834-1901, of the file `f` (an empty one is a file that does not exist), with the size
`max_pool_size` and the flag `BIN_WRITE_CFG_ALWAYS_CREATE_NEW`; `none`: it fails. A file with a header is mapped for the size stored
in it (1859-1889). -/
def openFile (E : Env) (always : Bool) (maxSize : Nat) (f : Img) : Out (Option Plug) :=
  if f.size < 92 then initEmpty E maxSize ⟨f.mem, 0⟩
  else if f.field 36 < f.size then return none
  else if always then initEmpty E (f.field 36).toNat f
  else checkExisting (f.field 36).toNat f

end BX
