import Verif.Model.Base
import Verif.Model.Image
/-
The JSON tokenizer (src/jsmn/jsmn.c, built with `JSMN_PARENT_LINKS` and without `JSMN_STRICT`, include/binary_xml/jsmn/jsmn.h:10) and the traversal of its tokens by the JSON source plugin
(src/bin_json_plugin.cpp). Positions, counts and sizes are unbounded here; the code keeps them in 32 bit integers, so the model describes texts shorter than 2 GB.
-/
namespace BX

/-- `jsmntype_t`, jsmn.h:18-24 -/
inductive JT where
  | object
  | array
  | string
  | primitive
deriving DecidableEq, Repr

/-- `jsmntok_t`, jsmn.h:49-58 (without `total_size`, which is kept in a table of its own, see `prepTotal`) -/
structure Tok where
  type : JT
  start : Int
  end_ : Int
  size : Nat
  parent : Int
deriving DecidableEq, Repr

/-- the error codes of `jsmn_parse`, jsmn.h:34-41; `ub` stands for an access outside the token array -/
inductive JErr where
  | nomem
  | inval
  | part
  | ub
deriving DecidableEq, Repr

/-- `jsmn_parser`, jsmn.h:64-68, and the local variable `count`, jsmn.c:156. `toks` are the tokens allocated so far (`toknext` is their number; none in the counting pass), `sup` is `toksuper`. -/
structure JP where
  toks : List Tok
  sup : Int
  count : Nat
deriving DecidableEq, Repr

/-- `jsmn_init`, jsmn.c:309-313 -/
def JP.init : JP := ⟨[], -1, 0⟩

/-- the characters that end a primitive, jsmn.c:46-50 -/
def jDelim (c : UInt8) : Bool := c = 58 || c = 9 || c = 13 || c = 10 || c = 32 || c = 44 || c = 93 || c = 125

/-- the loop of `jsmn_parse_primitive`, jsmn.c:42-56: how many characters the primitive has (`none`: `JSMN_ERROR_INVAL`) -/
def primLen : List UInt8 → Option Nat
  | [] => some 0
  | c :: r =>
    if c = 0 then some 0
    else if jDelim c then some 0
    else if c < 32 || c ≥ 127 then none
    else (primLen r).map (· + 1)

/-- where the loop of `jsmn_parse_string` is: between characters, after a backslash, before `n + 1` digits of `\uXXXX` -/
inductive StrAt where
  | plain
  | esc
  | hex (n : Nat)

/-- after a digit of `\uXXXX`, jsmn.c:125, 133 -/
def hexNext : Nat → StrAt
  | 0 => .plain
  | n+1 => .hex n

/-- jsmn.c:127-129 -/
def jHex (c : UInt8) : Bool := (48 ≤ c && c ≤ 57) || (65 ≤ c && c ≤ 70) || (97 ≤ c && c ≤ 102)

/-- the loop of `jsmn_parse_string`, jsmn.c:93-145, from a position after the starting quote: how many characters are before the closing quote. The code treats an escape sequence in one pass of its
loop; here every character is a step. -/
def strLen : StrAt → List UInt8 → Except JErr Nat
  | _, [] => .error .part
  | .plain, c :: r =>
    if c = 0 then .error .part
    else if c = 34 then .ok 0
    else (strLen (if c = 92 then .esc else .plain) r).map (· + 1)
  | .esc, c :: r =>
    if c ∈ [34, 47, 92, 98, 102, 114, 110, 116] then (strLen .plain r).map (· + 1)
    else if c = 117 then (strLen (.hex 3) r).map (· + 1)
    else .error .inval
  | .hex n, c :: r =>
    if c = 0 then .error .part
    else if jHex c then (strLen (hexNext n) r).map (· + 1)
    else .error .inval

/-- `jsmn_alloc_token` and `jsmn_fill_token`, jsmn.c:6-30: `cap` is the number of tokens provided -/
def JP.alloc (s : JP) (cap : Nat) (t : Tok) : Except JErr JP :=
  if s.toks.length ≥ cap then .error .nomem else .ok { s with toks := s.toks ++ [t] }

/-- `tokens[parser->toksuper].size++`, jsmn.c:172-173, 235-236, 281-282 -/
def JP.bump (s : JP) (sup : Int) : Except JErr JP :=
  if sup = -1 then .ok s
  else match s.toks[sup.toNat]? with
    | none => .error .ub
    | some t => if sup < 0 then .error .ub else .ok { s with toks := s.toks.set sup.toNat { t with size := t.size + 1 } }

/-- the loop over the parents of the last token, jsmn.c:190-207: `i` is the index of `token`, `fuel` bounds the climb -/
def JP.close (s : JP) (type : JT) (pos : Nat) : Nat → Int → Except JErr JP
  | 0, _ => .error .ub
  | fuel+1, i =>
    if i < 0 then .error .ub else
    match s.toks[i.toNat]? with
    | none => .error .ub
    | some t =>
      if t.start ≠ -1 ∧ t.end_ = -1 then
        if t.type ≠ type then .error .inval
        else .ok { s with toks := s.toks.set i.toNat { t with end_ := pos + 1 }, sup := t.parent }
      else if t.parent = -1 then
        if t.type ≠ type ∨ s.sup = -1 then .error .inval else .ok s
      else JP.close s type pos fuel t.parent

/-- one pass of the loop of `jsmn_parse`, jsmn.c:158-291, at position `pos` with the character `c` and the text `r` after it; `cap` is the number of tokens provided, `none` in the counting pass
(`tokens == NULL`). It returns the state, the next position and the text from it on. -/
def JP.step (cap : Option Nat) (s : JP) (pos : Nat) (c : UInt8) (r : List UInt8) : Except JErr (JP × Nat × List UInt8) :=
  if c = 123 ∨ c = 91 then
    match cap with
    | none => .ok ({ s with count := s.count + 1 }, pos + 1, r)
    | some k => do
      let s1 ← s.alloc k ⟨if c = 123 then .object else .array, pos, -1, 0, s.sup⟩
      let s2 ← s1.bump s.sup
      return ({ s2 with sup := (s2.toks.length : Int) - 1, count := s.count + 1 }, pos + 1, r)
  else if c = 125 ∨ c = 93 then
    match cap with
    | none => .ok (s, pos + 1, r)
    | some _ =>
      if s.toks.length < 1 then .error .inval
      else do
        let s1 ← s.close (if c = 125 then .object else .array) pos s.toks.length ((s.toks.length : Int) - 1)
        return (s1, pos + 1, r)
  else if c = 34 then do
    let n ← strLen .plain r
    match cap with
    | none => return ({ s with count := s.count + 1 }, pos + 1 + n + 1, r.drop (n + 1))
    | some k => do
      let s1 ← s.alloc k ⟨.string, (pos : Int) + 1, (pos : Int) + 1 + n, 0, s.sup⟩
      let s2 ← s1.bump s.sup
      return ({ s2 with count := s.count + 1 }, pos + 1 + n + 1, r.drop (n + 1))
  else if c = 9 ∨ c = 13 ∨ c = 10 ∨ c = 32 then .ok (s, pos + 1, r)
  else if c = 58 then .ok ({ s with sup := (s.toks.length : Int) - 1 }, pos + 1, r)
  else if c = 44 then
    match cap with
    | none => .ok (s, pos + 1, r)
    | some _ =>
      if s.sup = -1 then .ok (s, pos + 1, r)
      else match s.toks[s.sup.toNat]? with
        | none => .error .ub
        | some t =>
          if s.sup < 0 then .error .ub
          else if t.type ≠ .array ∧ t.type ≠ .object then .ok ({ s with sup := t.parent }, pos + 1, r)
          else .ok (s, pos + 1, r)
  else
    match primLen (c :: r) with
    | none => .error .inval
    | some n =>
      match cap with
      | none => .ok ({ s with count := s.count + 1 }, pos + n, (c :: r).drop n)
      | some k => do
        let s1 ← s.alloc k ⟨.primitive, pos, (pos : Int) + n, 0, s.sup⟩
        let s2 ← s1.bump s.sup
        return ({ s2 with count := s.count + 1 }, pos + n, (c :: r).drop n)

/-- the end of `jsmn_parse`, jsmn.c:293-302 -/
def JP.finish (cap : Option Nat) (s : JP) : Except JErr JP :=
  if cap.isSome ∧ s.toks.any (fun t => t.start ≠ -1 && t.end_ = -1) then .error .part else .ok s

/-- the loop of `jsmn_parse`, jsmn.c:158-303; `fuel` is a bound for the number of characters left (every pass consumes one, see `JP.loop_fuel`) -/
def JP.loop (cap : Option Nat) : Nat → JP → Nat → List UInt8 → Except JErr JP
  | 0, s, _, _ => s.finish cap
  | _, s, _, [] => s.finish cap
  | fuel+1, s, pos, c :: r =>
    if c = 0 then s.finish cap
    else match s.step cap pos c r with
      | .error e => .error e
      | .ok (s', pos', r') => JP.loop cap fuel s' pos' r'

/-- `jsmn_parse` of a whole text by a fresh parser, jsmn.c:151-303; its result is `count` -/
def jsmnParse (cap : Option Nat) (js : List UInt8) : Except JErr JP := JP.loop cap js.length JP.init 0 js

/-! ### the plugin -/

mutual
/-- `jsmn_prepare_total_size`, bin_json_plugin.cpp:16-43: the size of token `idx`, and the table of sizes (`tot`) filled on the way. `fuel` bounds the depth of the recursion. -/
def prepTotal (toks : List Tok) : Nat → Nat → (Nat → Int) → Out (Nat × (Nat → Int))
  | 0, _, _ => .ub
  | fuel+1, idx, tot =>
    match toks[idx]? with
    | none => .ub
    | some t => do
      let r ← (match t.type with
        | .string => .ok (1, tot)
        | .primitive => .ok (1, tot)
        | .object => prepMany toks fuel (2 * t.size) idx 1 tot
        | .array => prepMany toks fuel t.size idx 1 tot : Out (Nat × (Nat → Int)))
      return (r.1, fun j => if j = idx then (r.1 : Int) else r.2 j)
/-- its loops, bin_json_plugin.cpp:26-36: `n` calls are left -/
def prepMany (toks : List Tok) : Nat → Nat → Nat → Nat → (Nat → Int) → Out (Nat × (Nat → Int))
  | 0, _, _, _, _ => .ub
  | _+1, 0, _, total, tot => .ok (total, tot)
  | fuel+1, n+1, idx, total, tot => do
    let r ← prepTotal toks fuel (idx + total) tot
    prepMany toks fuel n idx (total + r.1) r.2
end

/-- the members of `Bin_json_plugin` used after `Initialize`, bin_json_plugin.h:11-17 -/
structure JDoc where
  src : List UInt8
  toks : List Tok
  tot : Nat → Int

/-- `Bin_json_plugin::Initialize`, bin_json_plugin.cpp:107-166, on the mapped text: a negative number of tokens makes `new` throw (`fail`); `tot` is what the memory of the token array contains. The check
of the types, lines 129-143, never fails: every token has a type. -/
def jsonInit (tot : Nat → Int) (js : List UInt8) : Out JDoc :=
  match jsmnParse none js with
  | .error .ub => .ub
  | .error _ => .fail
  | .ok p0 =>
    match jsmnParse (some p0.count) js with
    | .error .ub => .ub
    | .error _ => .fail
    | .ok p1 =>
      if p0.count ≠ p1.count then .fail
      else do
        let r ← prepTotal p1.toks (2 * p1.toks.length + 2) 0 tot
        if r.1 ≠ p0.count then .fail else return ⟨js, p1.toks, r.2⟩

/-- `getRoot`, bin_json_plugin.cpp:169-172: elements are indices of tokens -/
def JDoc.root : Nat := 0

/-- from the handle of an element to the token of its value: the keys of objects are skipped, bin_json_plugin.cpp:246-251, 264-269, 302-307 -/
def JDoc.valueTok (d : JDoc) (x : Nat) : Out Int :=
  match d.toks[x]? with
  | none => .ub
  | some t =>
    if t.parent ≥ 0 ∧ t.parent < d.toks.length then
      match d.toks[t.parent.toNat]? with
      | none => .ub
      | some p => if p.type = .object then .ok (x + d.tot x) else .ok x
    else .ok x

/-- a token by its index -/
def JDoc.tok (d : JDoc) (x : Int) : Out Tok :=
  if x < 0 then .ub else match d.toks[x.toNat]? with | none => .ub | some t => .ok t

/-- what `strncpy` and the terminating zero leave in `last_str`: the text of a token up to a NUL -/
def JDoc.text (d : JDoc) (t : Tok) : BStr := ((d.src.drop t.start.toNat).take (t.end_ - t.start).toNat).takeWhile (· ≠ 0)

/-- the name of an element of an array from the name of the array, bin_json_plugin.cpp:195-221; reading before the start of the buffer is `ub` -/
def itemName (s : BStr) : Out BStr :=
  if s = [] then .ub
  else if s.getLast? = some 115 then .ok s.dropLast
  else if s.length > 4 ∧ s.drop (s.length - 4) = b8 "List" then .ok (s.take (s.length - 4))
  else .ok (s ++ b8 "Item")

/-- `getNodeName`, bin_json_plugin.cpp:174-235 -/
def JDoc.getNodeName (d : JDoc) (x : Nat) : Out (Option BStr) := do
  let t ← d.tok x
  if t.parent < 0 ∨ t.parent ≥ d.toks.length then return none
  else do
    let p ← d.tok t.parent
    if p.type = .array then
      if p.parent < 0 ∨ p.parent ≥ d.toks.length then return none
      else do
        let p2 ← d.tok p.parent
        if p2.type = .string then do
          let s ← itemName (d.text p2)
          return some s
        else return some (b8 "__ARRAY_ITEM_NAME__")
    else if p.type ≠ .object then return none
    else if t.type ≠ .string then return none
    else return some (d.text t)

/-- `getNodeValue`, bin_json_plugin.cpp:237-257 -/
def JDoc.getNodeValue (d : JDoc) (x : Nat) : Out (Option BStr) := do
  let y ← d.valueTok x
  let t ← d.tok y
  if t.type ≠ .string ∧ t.type ≠ .primitive then return none else return some (d.text t)

/-- skipping the value of a member, bin_json_plugin.cpp:280 -/
def JDoc.skip (d : JDoc) (two : Bool) (y : Int) : Out Int :=
  if two then do let _ ← d.tok y; return y + d.tot y.toNat else .ok y

/-- the loops of `ForAllChildren`, bin_json_plugin.cpp:276-291: `n` children are left, the next one is the token `x`; the key and the value of a member of an object are skipped (`two`) -/
def JDoc.childLoop (d : JDoc) (two : Bool) : Nat → Int → Out (List Nat)
  | 0, _ => return []
  | n+1, x => do
    let _ ← d.tok x
    let y := x + d.tot x.toNat
    let z ← d.skip two y
    let rest ← JDoc.childLoop d two n z
    return x.toNat :: rest

/-- `ForAllChildren`, bin_json_plugin.cpp:259-293: the elements `on_element` is called with, in order -/
def JDoc.children (d : JDoc) (x : Nat) : Out (List Nat) := do
  let y ← d.valueTok x
  let t ← d.tok y
  match t.type with
  | .string => return []
  | .primitive => return []
  | .object => d.childLoop true t.size (y + 1)
  | .array => d.childLoop false t.size (y + 1)

mutual
/-- `ForAllChildrenRecursively`, bin_json_plugin.cpp:295-330: the elements `on_element` is called with and their depths, in order (the code repeats the loops of `ForAllChildren` around the recursive
call; tokens are not changed by it). `fuel` bounds the recursion. -/
def JDoc.walk (d : JDoc) : Nat → Nat → Nat → Out (List (Nat × Nat))
  | 0, _, _ => .ub
  | fuel+1, x, deep => do
    let hs ← d.children x
    let rest ← d.walkAll fuel hs (deep + 1)
    return (x, deep) :: rest
def JDoc.walkAll (d : JDoc) : Nat → List Nat → Nat → Out (List (Nat × Nat))
  | 0, _, _ => .ub
  | _+1, [], _ => return []
  | fuel+1, h :: hs, deep => do
    let l ← d.walk fuel h deep
    let r ← d.walkAll fuel hs deep
    return l ++ r
end

end BX
