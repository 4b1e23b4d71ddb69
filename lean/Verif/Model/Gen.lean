import Verif.Model.Image
/-
The generator of identifications. Models src/utils.cpp:1294-1320. `random()` gives numbers of 31 bits, which are parameters; so is the
answer of the clock. The program has one counter, `base_xor_value`, shared by both functions. Calls from several threads at once are not
modelled.
-/
namespace BX

/-- which of the two functions is called -/
inductive GenKind where
  | i64
  | u64
deriving DecidableEq

/-- one call: the function, and what the two calls of `random()` give (the upper and the lower one; which of them is made first is not
determined by the language and does not matter here) -/
structure GenCall where
  kind : GenKind
  hi : BitVec 31
  lo : BitVec 31

/-- `random() << 31 | random()` of `genI64` and `random() << 32 | random()` of `genU64`, utils.cpp:1307, 1316 -/
def GenCall.raw (c : GenCall) : BitVec 64 :=
  match c.kind with
  | .i64 => c.hi.setWidth 64 <<< 31 ||| c.lo.setWidth 64
  | .u64 => c.hi.setWidth 64 <<< 32 ||| c.lo.setWidth 64

/-- the counter when it is used: started by the clock if it is 0, utils.cpp:1296-1303, 1309, 1317 -/
def genStart (clock base : Int) : Int := if base = 0 then clock else base

/-- `genI64` and `genU64`, utils.cpp:1305-1320: the number (its 64 bits) and the counter afterwards; counting beyond the largest number
is undefined -/
def gen (clock base : Int) (c : GenCall) : Out (BitVec 64 × Int) :=
  let b := genStart clock base
  if b = 9223372036854775807 then .ub
  else .ok (c.raw ^^^ BitVec.ofInt 64 b, b + 1)

/-- the numbers of a sequence of calls -/
def genAll (clock : Int) : Int → List GenCall → Out (List (BitVec 64))
  | _, [] => .ok []
  | base, c :: cs => do
    let r ← gen clock base c
    let rest ← genAll clock r.2 cs
    return r.1 :: rest

end BX
