import Verif.Model.Crash
/-
The stores of registering a new symbol in a table that has symbols, one by one. Models src/bin_write_plugin.cpp:1436-1451, 2100-2137 and 2139-2183.
-/
namespace BX
open XBT

/-- the stores of `Open`, bin_write_plugin.cpp:1436-1451, where there is room. (The store of `max_id` by `getNamesSize`, which stores what is there, is left out.) -/
def Pool.openStores (P : Pool) (tags : Bool) : Out (List Store) := do
  let r ← P.namesSize (P.tab tags)
  if r.2.index = 0 ∧ r.2.names + r.1 = P.alloc then return []
  else do
    let bs ← P.img.rd r.2.names r.1
    let a := P.allocStores NULL r.1
    return a.1 ++ [.bytes a.2 bs, .tab tags { r.2 with index := 0 }, .tab tags { r.2 with index := 0, names := a.2 }]

/-- bytes that are stored one behind the other -/
def byteStores : Nat → List UInt8 → List Store
  | _, [] => []
  | a, c :: cs => .byte a c :: byteStores (a + 1) cs

/-- the stores of a new symbol in an open table, bin_write_plugin.cpp:2123-2136, 2168-2182, where there is room. `strcpy` stores the bytes of the name in their order. -/
def Pool.recordStores (P : Pool) (tags : Bool) (name : BStr) (t : XBT) : List Store :=
  let T := P.tab tags
  let a := P.allocStores NULL (3 + name.length + 1)
  a.1 ++ ([.tab tags { T with maxId := T.maxId + 1 }, .half a.2 (T.maxId + 1), .byte (a.2 + 2 : Nat) t.code] ++ byteStores (a.2 + 3) (name ++ [0]))

/-- the stores of `registerTag` and `registerParam`, bin_write_plugin.cpp:2100-2137, 2139-2183, for a name that is new, of a table that has symbols, where there is room -/
def Pool.symbolStores (P : Pool) (tags : Bool) (name : BStr) (t : XBT) : Out (List Store) := do
  let os ← P.openStores tags
  let Q ← P.stores os
  return os ++ Q.recordStores tags name t

end BX
