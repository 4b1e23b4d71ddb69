import Verif.Model.CrashRegister
import Verif.Model.Register
/-
The stores of registering the first symbol of a table, and of changing the type of a symbol. Models src/bin_write_plugin.cpp:2100-2206.
-/
namespace BX
open XBT

/-- the stores of `registerTag` and `registerParam`, bin_write_plugin.cpp:2102-2103, 2123-2136, 2145-2146, 2168-2182, for the first name of a table, where there is room. (`Open`, 2122, 2166,
has nothing to do.) -/
def Pool.firstStores (P : Pool) (tags : Bool) (name : BStr) (t : XBT) : List Store :=
  .tab tags { P.tab tags with names := P.alloc } :: (P.startNames tags).recordStores tags name t

/-- the stores of `registerTag` and `registerParam`, bin_write_plugin.cpp:2113-2121, 2156-2164, for a name that is there already: its type may be extended -/
def Pool.knownStores (P : Pool) (tags : Bool) (name : BStr) (t : XBT) : Out (List Store) := do
  let r ← P.lookup tags name
  match r with
  | none => return []
  | some x =>
    if x.type = t.code then return []
    else match ofCode x.type with
      | none => .ub
      | some u => return [.byte (x.off + 2) (joinTypes t u).code]

/-- the stores of `alterTag` and `alterAttr`, bin_write_plugin.cpp:2186-2206, of a call that succeeds -/
def Pool.alterStores (P : Pool) (tags : Bool) (id : Int) (t : XBT) : Out (List Store) := do
  let r ← P.recordOf (P.tab tags) id
  match r with
  | none => return []
  | some o => return [.byte (o + 2) t.code]

end BX
