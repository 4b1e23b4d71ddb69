import Verif.Model.Symbols
/-
What a symbol table should contain after a list of registrations; independent of searching and inserting.
-/
namespace BX.Spec

/-- the type of one name after its registrations, oldest first (`none`: never registered) -/
def typeAfter : List RegOp → Option XBT :=
  List.foldl (fun acc op =>
    match acc, op with
    | none, .typed _ ty => some ty
    | none, .text _ v => some (detect (v.getD []))
    | some old, .typed _ ty => some (joinTypes ty old)
    | some old, .text _ v => some (detect2 (v.getD []) old)) none

/-- at most `n` different names are registered -/
def AtMost (n : Nat) (ops : List RegOp) : Prop :=
  ∀ l : List BStr, l.Nodup → (∀ s ∈ l, ∃ op ∈ ops, op.name = s) → l.length ≤ n

end BX.Spec
