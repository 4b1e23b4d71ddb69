import Verif.Model.Base
/-
The registry of writable documents. Models class `BW_plugins`, src/bin_write_plugin.cpp:36-48, 2936-2973.
-/
namespace BX

/-- `BW_plugins`: the array of `MAX_BW_PLUGINS` pointers of eight bytes each and the number of those in use -/
structure Registry where
  slots : List Nat
  count : Nat

/-- constructor, bin_write_plugin.cpp:2936-2940 -/
def Registry.init : Registry := ⟨List.replicate 32 0, 0⟩

/-- `registerPlugin`, bin_write_plugin.cpp:2948-2954; a null pointer and the 33rd plugin are refused -/
def Registry.register (r : Registry) (p : Nat) : Bool × Registry :=
  if p = 0 then (false, r)
  else if 32 ≤ r.count then (false, r)
  else (true, ⟨r.slots.set r.count p, r.count + 1⟩)

/-- the bytes of an array of pointers -/
def ptrBytes (l : List Nat) : List UInt8 := l.flatMap (leN 8)

/-- the pointers in `n` times eight bytes -/
def bytesPtr : Nat → List UInt8 → List Nat
  | 0, _ => []
  | n+1, bs => rdN (bs.take 8) :: bytesPtr n (bs.drop 8)

/-- `memmove(plugins+i,plugins+i+1,n)`: `n` counts bytes -/
def moveDown (slots : List Nat) (i n : Nat) : List Nat :=
  let bs := ptrBytes slots
  bytesPtr slots.length (bs.take (8 * i) ++ (bs.drop (8 * (i + 1))).take n ++ bs.drop (8 * i + n))

/-- `unregisterPlugin`, bin_write_plugin.cpp:2956-2965 -/
def Registry.unregister (r : Registry) (p : Nat) : Bool × Registry :=
  let i := (r.slots.take r.count).findIdx (· == p)
  if i < r.count then (true, ⟨moveDown r.slots i (r.count - 1 - i), r.count - 1⟩)
  else (false, r)

/-- `getPlugin`, bin_write_plugin.cpp:2967-2973: `pool` gives the pool of each plugin -/
def Registry.getPlugin (r : Registry) (pool : Nat → Nat) (q : Nat) : Option Nat := (r.slots.take r.count).find? (fun p => pool p == q)

/-- a call -/
inductive RegCall where
  | register (p : Nat)
  | unregister (p : Nat)
deriving DecidableEq

def Registry.step (r : Registry) : RegCall → Bool × Registry
  | .register p => r.register p
  | .unregister p => r.unregister p

/-- the results of a sequence of calls and the registry after it -/
def Registry.run : Registry → List RegCall → List Bool × Registry
  | r, [] => ([], r)
  | r, c :: cs =>
    let s := r.step c
    let t := s.2.run cs
    (s.1 :: t.1, t.2)

/-- what the registry holds -/
def Registry.list (r : Registry) : List Nat := r.slots.take r.count

end BX
