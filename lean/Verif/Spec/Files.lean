import Verif.Model.Files
/-
What a kernel may answer, and which calls a visit of a directory makes.
-/
namespace BX.Spec
open BX

/-- `read` gives a beginning of the content of the file: at most as many bytes as asked for, and at most 0x7ffff000 (the limit of Linux) -/
def ReadsFile (k : Kernel) (content : List UInt8) : Prop :=
  ∀ n bs, k.read n = some bs → bs = content.take bs.length ∧ bs.length ≤ n ∧ bs.length ≤ 0x7ffff000 ∧ bs.length ≤ content.length

/-- the calls of the caller's function for a list of entries: all of them, or up to the first that answers false (then with its `errno`) -/
inductive Visited (onFile : σ → CStr → σ × Bool × Int) : σ → List CStr → σ → Option Int → Prop
  | all (s) : Visited onFile s [] s none
  | stop {s n s' e ns} : onFile s n = (s', false, e) → Visited onFile s (n :: ns) s' (some e)
  | go {s n s' e ns s'' o} : onFile s n = (s', true, e) → Visited onFile s' ns s'' o → Visited onFile s (n :: ns) s'' o

/-- the entries of a directory but the two that name it and its parent -/
def entries (names : List CStr) : List CStr := names.filter fun n => n != ['.'] && n != ['.', '.']

end BX.Spec
