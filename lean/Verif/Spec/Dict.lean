import Verif.Model.Image
/-
Dictionaries of symbols, without any memory: the identification of a symbol is its position.
-/
namespace BX.Spec
open BX

/-- a symbol: its name and the type of its values -/
structure Sym where
  name : BStr
  type : XBT
deriving DecidableEq

/-- the position of a name -/
def position (name : BStr) (l : List Sym) : Option Nat := l.findIdx? (·.name = name)

/-- registering a symbol: a new one is appended, a known one keeps its position, and its type is extended to hold both -/
def registered (l : List Sym) (name : BStr) (t : XBT) : List Sym :=
  match position name l with
  | none => l ++ [⟨name, t⟩]
  | some _ => l.map fun s => if s.name = name ∧ s.type ≠ t then ⟨name, joinTypes t s.type⟩ else s

/-- changing the type of the symbol at a position -/
def retyped (l : List Sym) (i : Nat) (t : XBT) : List Sym := l.modify i fun s => { s with type := t }

end BX.Spec
