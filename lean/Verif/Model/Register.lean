import Verif.Model.Open
/-
Registering symbols with given identifications, changing their types, and `allRegistered` of a document that has been opened for checking.
Models src/bin_write_plugin.cpp:1344-1385, 2005-2098, 2186-2206 and 2240-2250.
-/
namespace BX
open XBT

/-- `registerTag(id,name,type)` and `registerAttr(id,name,type)` of a document opened for checking, bin_write_plugin.cpp:2011-2023, 2060-2072.
A stored byte that is no type is used as an index of `XML_BINARY_TYPE_NAMES`. -/
def Plug.checkId (g : Plug) (tags : Bool) (id : Int) (name : BStr) (t : XBT) : Out (Plug × Bool) :=
  if id < 0 ∨ (g.pool.tab tags).maxId < id then return ({ g with failures := g.failures + 1 }, false)
  else do
    let n ← g.pool.symName tags id
    let u ← g.pool.symType tags id
    if u = none then .ub
    else if n = some name ∧ u = some t then return (g, true) else return ({ g with failures := g.failures + 1 }, false)

/-- a symbol is appended with the identification `id`, bin_write_plugin.cpp:2031-2051, 2080-2097, to a table that has been opened. `max_id` is
raised first. The assertion 2115 of `registerTag` compares the end of the record counted from the name with the end of the pool. -/
def Pool.addAt (P : Pool) (tags : Bool) (id : Int) (name : BStr) (t : XBT) : Out (Pool × Bool) := do
  let P := P.startNames tags
  let P := P.setTab tags { P.tab tags with maxId := max (P.tab tags).maxId id }
  let r ← P.allocate (3 + name.length + 1)
  match r.2 with
  | none => return (r.1, false)
  | some o => do
    let P ← r.1.wr o (symRecord id t name)
    return (P, if tags then decide (o + 3 + aa (3 + name.length + 1) = P.alloc) else true)

/-- `BW_plugin::registerTag(id,name,type)`, bin_write_plugin.cpp:2005-2052 (`tags` true), and `registerAttr(id,name,type)`, 2054-2098 -/
def Plug.registerId (g : Plug) (tags : Bool) (id : Int) (name : BStr) (t : XBT) : Out (Plug × Bool) :=
  if t = LAST then return (g, false)
  else if g.check then g.checkId tags id name t
  else do
    let r ← g.pool.open' tags
    if r.2 = false ∨ (tags = false ∧ r.1.tags.names = 0) then return ({ g with pool := r.1 }, false)
    else do
      let s ← r.1.addAt tags id name t
      return ({ g with pool := s.1 }, s.2)

/-- `BW_plugin::allRegistered`, bin_write_plugin.cpp:2240-2250 -/
def Plug.allRegistered (E : Env) (g : Plug) : Out (Plug × Bool) := do
  let r ← g.pool.makeSpace E 0x4000
  if r.2 = false then return ({ g with pool := r.1 }, false)
  else if g.check ∧ r.1.tags.index ≠ 0 ∧ r.1.params.index ≠ 0 then return ({ g with pool := r.1 }, g.failures = 0)
  else do
    let s ← r.1.ensureTable true
    if s.2 = false then return ({ g with pool := s.1 }, false)
    else do
      let u ← s.1.ensureTable false
      return ({ g with pool := u.1 }, u.2)

/-- `BW_plugin::alterTag`, bin_write_plugin.cpp:2186-2195 (`tags` true), and `alterAttr`, 2197-2206; the record is found by
`BW_symbol_table_16B::getType`, 1344-1385. A stored byte that is no type is undefined behaviour. -/
def Pool.alter (P : Pool) (tags : Bool) (id : Int) (t : XBT) : Out (Pool × Bool) :=
  if t = LAST then return (P, false)
  else do
    let r ← P.recordOf (P.tab tags) id
    match r with
    | none => return (P, false)
    | some o => do
      let c ← P.img.u8 (o + 2)
      match ofCode c with
      | none => .ub
      | some u =>
        if convertable u t = .yes then do
          let P ← P.wr (o + 2) [t.code]
          return (P, true)
        else return (P, false)

end BX
