import Verif.Model.Crash
/-
The stores of `Clear`, one by one. Models src/bin_write_plugin.cpp:2307-2358.
-/
namespace BX
open XBT

/-- the stores of `makeTable`, bin_write_plugin.cpp:1548-1581, of a table without an index; a table without symbols needs none -/
def Pool.indexStoresOf (P : Pool) (tags : Bool) : Out (List Store) := if (P.tab tags).maxId < 0 then .ok [] else P.tableStores tags

/-- the stores of `Clear` up to the indexes, bin_write_plugin.cpp:2343-2353, for names of `ts` and `ps` bytes. (A `memset` of no bytes stands for none.) -/
def Pool.emptyStores (P : Pool) (ts ps : Nat) : List Store :=
  [.tab true { P.tags with names := poolHeader }, .tab true { P.tags with names := poolHeader, index := 0 },
   .tab false { P.params with names := poolHeader + ts }, .tab false { P.params with names := poolHeader + ts, index := 0 },
   .alloc (poolHeader + ts + ps), .bytes (poolHeader + ts + ps : Nat) (List.replicate (P.alloc - (poolHeader + ts + ps)) 0)]

/-- the names are moved, bin_write_plugin.cpp:2333-2342; a `memmove` of no bytes stands for none -/
def Pool.moveStores (P : Pool) (ts ps : Nat) : Out (List Store) := do
  let names ← P.img.rd P.tags.names ts
  let attrs ← P.img.rd P.params.names ps
  return (if P.tags.names = poolHeader ∨ ts = 0 then [] else [.bytes poolHeader names]) ++ (if P.params.names = poolHeader + ts ∨ ps = 0 then [] else [.bytes (poolHeader + ts : Nat) attrs])

/-- the stores of `Clear`, bin_write_plugin.cpp:2314-2357, behind the first one, `pool->root = 0`, of a call that succeeds, where the attribute names need not be copied out of the
way and there is room for the indexes. (The stores of `max_id` by `getNamesSize`, which store what is there, are left out.) -/
def Pool.clearStores (P : Pool) : Out (List Store) := do
  let r ← P.namesSize P.tags
  let s ← P.namesSize P.params
  let ms ← P.moveStores r.1 s.1
  let ss := ms ++ P.emptyStores r.1 s.1
  let Q ← P.stores ss
  let ts ← Q.indexStoresOf true
  let R ← Q.stores ts
  let ps ← R.indexStoresOf false
  return ss ++ (ts ++ ps)

end BX
