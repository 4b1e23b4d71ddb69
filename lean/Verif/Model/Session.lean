import Verif.Model.Dict
/-
More calls on a writable document: elements made of data of any type, the root, importing symbols. Models parts of
src/bin_write_plugin.cpp.
-/
namespace BX
open XBT

/-- making an element of given data, as `attrData` (bin_write_plugin.cpp:637-655) and `tagData` (2622-2628) do it: `allocate8`, `init` and
the value `bs`. The check of the type and the conversion from text are separate. -/
def Pool.makeData (P : Pool) (id : Int) (t : XBT) (flags : UInt8) (bs : List UInt8) : Out (Pool × Option Nat) := do
  let r ← P.allocate8 (24 + bs.length)
  match r.2 with
  | none => return (r.1, none)
  | some o => do
    let P ← r.1.initElem o id t flags
    let P ← P.wr (o + 24) bs
    return (P, some o)

/-- `BW_plugin::setRoot`, bin_write_plugin.cpp:2252-2275; a violated assertion leaves the pool as it is -/
def Pool.setRoot (P : Pool) (e : Option Int) : Out Pool :=
  match e with
  | none => return P
  | some e =>
    if P.root ≠ 0 then return P
    else do
      let off ← P.eOffset e
      if 0 ≤ off ∧ off < P.alloc then return { P with root := off.toNat } else return P

/-- the flag `BW_SYMBOLS_FAST_REG` is set for an empty table and cleared for others, bin_write_plugin.cpp:2209-2210, 2219-2220, 2225-2226,
2234-2235 -/
def Pool.setFast (P : Pool) (tags : Bool) : Pool := P.setTab tags { P.tab tags with fast := decide ((P.tab tags).maxId = -1) }

/-- `BW_plugin::importTags`, bin_write_plugin.cpp:2207-2221 (`tags` true), and `importParams`, 2223-2236 (`tags` false), of the symbols
`src`; `none` is a null pointer. The results of `registerTag` and `registerParam` are not used. -/
def Pool.importSyms (P : Pool) (tags : Bool) (src : Option (List (BStr × XBT))) : Out Pool :=
  match src with
  | none => return P.setFast tags
  | some l => do
    let P ← l.foldlM (fun P s => do let r ← P.register tags s.1 s.2; return r.1) (P.setFast tags)
    return P.setFast tags

end BX
