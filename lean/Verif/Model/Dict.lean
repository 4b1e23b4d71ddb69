import Verif.Model.Pool
/-
The dictionary of a writable document: its two symbol tables (tags and attributes). Models src/bin_write_plugin.cpp:1229-1452, 1453-1626,
2100-2230, 2232-2245 and 2307-2358. Negative (built-in) identifications are answered without the tables and are not modelled for names.

A name is a C string without its terminator. `char` is signed.
-/
namespace BX
open XBT

/-- the table of tags or of attributes -/
def Pool.tab (P : Pool) (tags : Bool) : Tab16 := if tags then P.tags else P.params
def Pool.setTab (P : Pool) (tags : Bool) (T : Tab16) : Pool := if tags then { P with tags := T } else { P with params := T }

/-- `id = *(p++); id |= *(p++) << 8;` with signed characters, bin_write_plugin.cpp:1249-1250, 1321, 1359, 1403-1404 -/
def sid (lo hi : UInt8) : Int :=
  if lo.toNat < 128 then lo.toNat + 256 * (if hi.toNat < 128 then (hi.toNat : Int) else hi.toNat - 256) else lo.toNat - 256

/-- `for(;p < p_limit && *n == *p && *n != '\0';p++,n++);`, bin_write_plugin.cpp:1255: what is left of the name, and `p` -/
def Img.cmpName (f : Img) (lim : Nat) : BStr → Nat → Out (BStr × Nat)
  | [], p => return ([], p)
  | c :: n, p =>
    if lim ≤ p then return (c :: n, p)
    else do
      let b ← f.u8 p
      if c = b then f.cmpName lim n (p + 1) else return (c :: n, p)

/-- `while(p < p_limit && *p != '\0') p++;`, bin_write_plugin.cpp:1268, 1327, 1369, 1413; the first argument is `p_limit - p` -/
def Img.skipName (f : Img) : Nat → Nat → Out Nat
  | 0, p => return p
  | k+1, p => do
    let b ← f.u8 p
    if b = 0 then return p else f.skipName k (p + 1)

/-- what `getByName` finds: the identification, the offset of the record and its type -/
structure Found where
  id : Int
  off : Nat
  type : UInt8
deriving DecidableEq

/-- the sequential search of `getByName`, bin_write_plugin.cpp:1238-1275 -/
def Img.byNameSeq (f : Img) (lim : Nat) (maxId : Int) (name : BStr) : Nat → Int → Nat → Out (Option Found)
  | 0, _, _ => .ub
  | fuel+1, id, p =>
    if maxId < id then return none
    else do
      let lo ← f.u8 p
      let hi ← f.u8 (p + 1)
      let ty ← f.u8 (p + 2)
      let r ← f.cmpName lim name (p + 3)
      if lim ≤ r.2 then return none
      else do
        let b ← f.u8 r.2
        if b = 0 ∧ r.1 = [] then return some ⟨sid lo hi, p, ty⟩
        else do
          let q ← f.skipName (lim - r.2) r.2
          if lim ≤ q then return none
          else f.byNameSeq lim maxId name fuel (sid lo hi + 1) (aa q)

/-- the search of `getByName` using the index, bin_write_plugin.cpp:1279-1291; `n` entries are left. `strcmp` reads the whole name. -/
def Img.byNameIdx (f : Img) (index : Nat) (name : BStr) : Nat → Nat → Out (Option Found)
  | 0, _ => return none
  | n+1, id => do
    let o ← f.i32 (index + 4 * id)
    let s ← f.str (o + 3)
    if s = name then do
      let ty ← f.u8 (o + 2)
      return some ⟨id, o.toNat, ty⟩
    else f.byNameIdx index name n (id + 1)

/-- `BW_symbol_table_16B::getByName`, bin_write_plugin.cpp:1233-1293 -/
def Pool.getByName (P : Pool) (T : Tab16) (name : BStr) : Out (Option Found) :=
  if T.index = 0 then P.img.byNameSeq P.alloc T.maxId name (P.alloc + 4) 0 T.names
  else P.img.byNameIdx T.index name (T.maxId + 1).toNat 0

/-- the sequential search of `getName` and `getType`, bin_write_plugin.cpp:1311-1337, 1349-1379: the offset of the record -/
def Img.byIdSeq (f : Img) (lim : Nat) (maxId search : Int) : Nat → Int → Nat → Out (Option Nat)
  | 0, _, _ => .ub
  | fuel+1, id, p =>
    if maxId < id then return none
    else do
      let lo ← f.u8 p
      let hi ← f.u8 (p + 1)
      if sid lo hi = search then return some p
      else do
        let q ← f.skipName (lim - (p + 3)) (p + 3)
        if lim ≤ q then return none
        else f.byIdSeq lim maxId search fuel (sid lo hi + 1) (aa (q + 1))

/-- the offset of the record of an identification that is not negative, as found by `getName` and `getType`,
bin_write_plugin.cpp:1306-1341, 1346-1384 -/
def Pool.recordOf (P : Pool) (T : Tab16) (id : Int) : Out (Option Nat) :=
  if id < 0 ∨ T.maxId < id then return none
  else if T.index = 0 then P.img.byIdSeq P.alloc T.maxId id (P.alloc + 4) 0 T.names
  else do
    let o ← P.img.i32 (T.index + 4 * id)
    if o < 0 then .ub else return some o.toNat

/-- `BW_symbol_table_16B::getName`, bin_write_plugin.cpp:1295-1342, and the text of its result -/
def Pool.getName (P : Pool) (T : Tab16) (id : Int) : Out (Option BStr) := do
  let r ← P.recordOf T id
  match r with
  | none => return none
  | some o => do let s ← P.img.str (o + 3); return some s

/-- the loop of `getNamesSize`, bin_write_plugin.cpp:1401-1418: the end of the names and the last identification met -/
def Img.namesLoop (f : Img) (lim : Nat) (maxId : Int) : Nat → Int → Int → Nat → Out (Nat × Int)
  | 0, _, _, _ => .ub
  | fuel+1, id, prev, p =>
    if maxId < id then return (p, maxId)
    else do
      let lo ← f.u8 p
      let hi ← f.u8 (p + 1)
      if sid lo hi ≠ prev + 1 then return (p, prev)
      else do
        let q ← f.skipName (lim - (p + 3)) (p + 3)
        f.namesLoop lim maxId fuel (sid lo hi + 1) (sid lo hi) (aa (q + 1))

/-- `BW_symbol_table_16B::getNamesSize`, bin_write_plugin.cpp:1387-1420: the size, and the table with `max_id` corrected -/
def Pool.namesSize (P : Pool) (T : Tab16) : Out (Nat × Tab16) :=
  if T.names = 0 then return (0, T)
  else do
    let r ← P.img.namesLoop P.alloc T.maxId (P.alloc + 4) 0 (-1) T.names
    return (r.1 - T.names, { T with maxId := r.2 })

/-- copying `size` bytes inside of the pool: `memcpy`, `memmove` -/
def Pool.copy (P : Pool) (dst src size : Nat) : Out Pool := do
  let bs ← P.img.rd src size
  P.wr dst bs

/-- `BW_symbol_table_16B::Open`, bin_write_plugin.cpp:1436-1451 -/
def Pool.open' (P : Pool) (tags : Bool) : Out (Pool × Bool) := do
  let r ← P.namesSize (P.tab tags)
  let P := P.setTab tags r.2
  if r.2.index = 0 ∧ r.2.names + r.1 = P.alloc then return (P, true)
  else do
    let s ← P.allocate r.1
    match s.2 with
    | none => return (s.1, false)
    | some o => do
      let P ← s.1.copy o r.2.names r.1
      return (P.setTab tags { r.2 with index := 0, names := o }, true)

/-- the record `ID:word|Type:byte|string|NUL:byte` -/
def symRecord (id : Int) (t : XBT) (name : BStr) : List UInt8 := leN 2 (toU 16 id) ++ [t.code] ++ name ++ [0]

/-- appending a new symbol, bin_write_plugin.cpp:2121-2137, 2165-2183; -1 is `XTNR_NULL` and `XPNR_NULL` -/
def Pool.addSymbol (P : Pool) (tags : Bool) (name : BStr) (t : XBT) : Out (Pool × Int) := do
  let r ← P.open' tags
  if r.2 = false then return (r.1, -1)
  else do
    let s ← r.1.allocate (3 + name.length + 1)
    match s.2 with
    | none => return (s.1, -1)
    | some o => do
      let T := s.1.tab tags
      let P := s.1.setTab tags { T with maxId := T.maxId + 1 }
      let P ← P.wr o (symRecord (T.maxId + 1) t name)
      return (P, T.maxId + 1)

/-- the symbol has been found, bin_write_plugin.cpp:2113-2121, 2156-2164: its type is extended if needed. A stored byte that is no type is
undefined behaviour in `XBT_JoinTypes`. -/
def Pool.extendType (P : Pool) (x : Found) (t : XBT) : Out Pool :=
  if x.type = t.code then return P
  else match ofCode x.type with
    | none => .ub
    | some u => P.wr (x.off + 2) [(joinTypes t u).code]

/-- `names_offset` of an empty table is set first, bin_write_plugin.cpp:2102-2103, 2145-2146 -/
def Pool.startNames (P : Pool) (tags : Bool) : Pool :=
  if (P.tab tags).names = 0 then P.setTab tags { P.tab tags with names := P.alloc } else P

/-- the search is skipped in a table with `BW_SYMBOLS_FAST_REG`, bin_write_plugin.cpp:2106, 2149 -/
def Pool.lookup (P : Pool) (tags : Bool) (name : BStr) : Out (Option Found) :=
  if (P.tab tags).fast then return none else P.getByName (P.tab tags) name

/-- `BW_plugin::registerTag(name,type)`, bin_write_plugin.cpp:2100-2137 (`tags` true), and `registerParam(name,type)`, 2139-2183
(`tags` false); the identification, or -1 -/
def Pool.register (P : Pool) (tags : Bool) (name : BStr) (t : XBT) : Out (Pool × Int) :=
  if tags = false ∧ (t = LAST) then return (P, -1)
  else do
    let P := P.startNames tags
    let r ← P.lookup tags name
    match r with
    | some x =>
      if 0 ≤ x.id then do
        let P ← P.extendType x t
        return (P, x.id)
      else if tags = false ∧ P.tags.names = 0 then return (P, -1)
      else P.addSymbol tags name t
    | none =>
      if tags = false ∧ P.tags.names = 0 then return (P, -1)
      else P.addSymbol tags name t

/-- the loop of `makeTable`, bin_write_plugin.cpp:1563-1577; `n` records are left. The names are read from the pool `P`, whose memory
changes at the index only. -/
def Pool.indexLoop (maxId : Int) (index stop : Nat) : Nat → Pool → Nat → Out (Pool × Bool)
  | 0, P, _ => return (P, true)
  | n+1, P, start =>
    if stop ≤ start then return (P, false)
    else do
      let id ← P.img.i16 start
      if id < 0 ∨ maxId < id then return (P, false)
      else do
        let P ← P.wr (index + 4 * id) (le32 start)
        let s ← P.img.str (start + 3)
        Pool.indexLoop maxId index stop n P (aa (start + 3 + s.length + 1))

/-- `BW_pool::makeTable`, bin_write_plugin.cpp:1548-1581 -/
def Pool.makeTable (P : Pool) (tags : Bool) : Out (Pool × Bool) :=
  let P := P.setTab tags { P.tab tags with index := 0 }
  if (P.tab tags).maxId < 0 then return (P, true)
  else if (P.tab tags).names = 0 then return (P, false)
  else do
    let r ← P.allocate (4 * ((P.tab tags).maxId + 1))
    match r.2 with
    | none => return (r.1, false)
    | some ix => do
      let s ← r.1.namesSize (r.1.tab tags)
      let P := r.1.setTab tags s.2
      let u ← Pool.indexLoop s.2.maxId ix (s.2.names + s.1) (s.2.maxId + 1).toNat P s.2.names
      if u.2 then return (u.1.setTab tags { u.1.tab tags with index := ix }, true) else return u

/-- `tags.index != 0 || makeTable(tags)`, bin_write_plugin.cpp:2247-2248 -/
def Pool.ensureTable (P : Pool) (tags : Bool) : Out (Pool × Bool) :=
  if (P.tab tags).index ≠ 0 then return (P, true) else P.makeTable tags

/-- `BW_plugin::allRegistered`, bin_write_plugin.cpp:2240-2250, of a file that has not been opened for checking -/
def Pool.allRegistered (E : Env) (P : Pool) : Out (Pool × Bool) := do
  let r ← P.makeSpace E 0x4000
  if r.2 = false then return (r.1, false)
  else do
    let r ← r.1.ensureTable true
    if r.2 = false then return (r.1, false) else r.1.ensureTable false

/-- the record of an identification that is not negative in the index, bin_write_plugin.cpp:1462-1468, 1525-1531 -/
def Pool.indexed (P : Pool) (T : Tab16) (id : Int) : Out (Option Int) := do
  let o ← P.img.i32 (T.index + 4 * id)
  return if o = 0 then none else some o

/-- the stored type of a record -/
def Pool.typeAt (P : Pool) (r : Option Int) : Out (Option XBT) :=
  match r with
  | none => return some UNKNOWN
  | some o => do let c ← P.img.u8 (o + 2); return ofCode c

/-- the types of the built-in tags, bin_write_plugin.cpp:1470-1485 -/
def builtinTagType (id : Int) : XBT :=
  if id = -2 ∨ id = -6 ∨ id = -9 then NULL else if id = -3 ∨ id = -4 then BLOB else UNKNOWN

/-- the types of the built-in attributes, bin_write_plugin.cpp:1510-1522 -/
def builtinAttrType (id : Int) : XBT :=
  if id = -1 then NULL else if id = -2 then STRING else if id = -3 then SHA1 else if id = -4 then UNIX_TIME
  else if id = -5 ∨ id = -6 ∨ id = -7 ∨ id = -8 then INT32 else if id = -9 then INT64 else if id = -10 then UNIX_TIME64_MSEC else UNKNOWN

/-- `BW_pool::getTagType`, bin_write_plugin.cpp:1457-1488 (`tags` true), `getAttrType`, 1504-1532 (`tags` false); `none`: the stored
byte is no type -/
def Pool.symType (P : Pool) (tags : Bool) (id : Int) : Out (Option XBT) :=
  if (P.tab tags).index = 0 then return some UNKNOWN
  else if id < 0 then return some (if tags then builtinTagType id else builtinAttrType id)
  else if (P.tab tags).maxId < id then return some UNKNOWN
  else do
    let r ← P.indexed (P.tab tags) id
    P.typeAt r

/-- `BW_pool::getTagName`, bin_write_plugin.cpp:1490-1501, and `getAttrName`, 1534-1546, for identifications that are not negative -/
def Pool.symName (P : Pool) (tags : Bool) (id : Int) : Out (Option BStr) :=
  if (P.tab tags).index = 0 ∨ id < 0 ∨ (P.tab tags).maxId < id then return none
  else do
    let r ← P.indexed (P.tab tags) id
    match r with
    | none => return none
    | some o => do let s ← P.img.str (o + 3); return some s

/-- the first part of `Clear`, bin_write_plugin.cpp:2326-2332: the attribute names are copied out of the way; their offset -/
def Pool.clearSave (P : Pool) (ts ps : Nat) : Out (Pool × Option Nat) :=
  if poolHeader < P.tags.names ∧ P.tags.names < poolHeader + ts + ps then do
    let r ← P.allocate ps
    match r.2 with
    | none => return (r.1, none)
    | some o => do
      let P ← r.1.copy o P.params.names ps
      return (P, some o)
  else return (P, some P.params.names)

/-- `if (src != dst) { ASSERT(other does not overlap the destination); memmove }`, bin_write_plugin.cpp:2333-2342 -/
def Pool.clearMove (P : Pool) (dst src size other osize : Nat) : Out (Pool × Bool) :=
  if src = dst then return (P, true)
  else if dst ≥ other + osize ∨ dst + size ≤ other then do
    let P ← P.copy dst src size
    return (P, true)
  else return (P, false)

/-- the last part of `Clear`, bin_write_plugin.cpp:2343-2357 -/
def Pool.clearEnd (P : Pool) (ts ps : Nat) : Out (Pool × Bool) := do
  let P := { P with tags := { P.tags with names := poolHeader, index := 0 }, params := { P.params with names := poolHeader + ts, index := 0 } }
  let old := P.alloc
  let P := { P with alloc := poolHeader + ts + ps }
  let P ← P.wr P.alloc (List.replicate (old - P.alloc) 0)
  let r ← P.makeTable true
  if r.2 = false then return r else r.1.makeTable false

/-- `BW_plugin::Clear`, bin_write_plugin.cpp:2307-2358 -/
def Pool.clear (P : Pool) : Out (Pool × Bool) := do
  let P := { P with root := 0 }
  let r ← P.namesSize P.tags
  let P := { P with tags := r.2 }
  let s ← P.namesSize P.params
  let P := { P with params := s.2 }
  let src := P.tags.names
  let u ← P.clearSave r.1 s.1
  match u.2 with
  | none => return (u.1, false)
  | some psrc => do
    let v ← u.1.clearMove poolHeader src r.1 psrc s.1
    if v.2 = false then return v
    else do
      let w ← v.1.clearMove (poolHeader + r.1) psrc s.1 src r.1
      if w.2 = false then return w else w.1.clearEnd r.1 s.1

end BX
