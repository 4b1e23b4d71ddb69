import Verif.Model.Pool
/-
What an allocator promises: blocks of the requested size, aligned, inside the pool and apart from each other.
-/
namespace BX.Spec
open BX

/-- a request: 4-byte aligned memory, 8-byte aligned memory, or more space for later requests -/
inductive AllocOp where
  | four (n : Int)
  | eight (n : Int)
  | space (n : Nat)
deriving DecidableEq

/-- the size a request mentions -/
def AllocOp.size : AllocOp → Int
  | .four n => n
  | .eight n => n
  | .space n => n

/-- the alignment it asks for -/
def AllocOp.align : AllocOp → Nat
  | .eight _ => 8
  | _ => 4

/-- serving a request: the address of the block, if any -/
def AllocOp.run (E : Env) (P : Pool) : AllocOp → Out (Pool × Option Nat)
  | .four n => P.allocate n
  | .eight n => P.allocate8 n
  | .space n => do let r ← P.makeSpace E n; return (r.1, none)

/-- the requests served (request and address), in order, and the pool after them -/
inductive Served (E : Env) : Pool → List AllocOp → List (AllocOp × Nat) → Pool → Prop
  | nil (P : Pool) : Served E P [] [] P
  | some {P Q R : Pool} {op : AllocOp} {o : Nat} {ops l} : op.run E P = .ok (Q, some o) → Served E Q ops l R → Served E P (op :: ops) ((op, o) :: l) R
  | none {P Q R : Pool} {op : AllocOp} {ops l} : op.run E P = .ok (Q, none) → Served E Q ops l R → Served E P (op :: ops) l R

end BX.Spec
