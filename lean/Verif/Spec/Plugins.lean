import Verif.Model.Plugins
/-
What a registry of at most 32 plugins promises, in terms of the list of the plugins registered and not unregistered.
-/
namespace BX.Spec
open BX

/-- the list after a call -/
def liveStep (l : List Nat) : RegCall → List Nat
  | .register p => if l.length < 32 then l ++ [p] else l
  | .unregister p => l.erase p

/-- the list after a sequence of calls -/
def live (l : List Nat) (cs : List RegCall) : List Nat := cs.foldl liveStep l

/-- the result of a call -/
def liveOk (l : List Nat) : RegCall → Bool
  | .register _ => l.length < 32
  | .unregister p => l.contains p

/-- the results of a sequence of calls -/
def liveOks (l : List Nat) : List RegCall → List Bool
  | [] => []
  | c :: cs => liveOk l c :: liveOks (liveStep l c) cs

/-- calls as constructors and destructors of local objects make them: a plugin is registered while it is not in the list, and the one
unregistered is the last of the list (or none of it) -/
def Nested (l : List Nat) : List RegCall → Prop
  | [] => True
  | c :: cs => (match c with
    | .register p => 0 < p ∧ p < 2 ^ 64 ∧ p ∉ l
    | .unregister p => p ∈ l → l.getLast? = some p) ∧ Nested (liveStep l c) cs

end BX.Spec
