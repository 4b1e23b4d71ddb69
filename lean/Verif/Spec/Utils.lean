import Verif.Model.Base
/-
What wildcard patterns, paths, versions and identifiers mean; independent of the code.
-/
namespace BX.Spec

/-- `value` matches `mask`: `*` stands for any run of characters (also none), `?` for exactly one, others for themselves. -/
inductive Match : List Char → List Char → Prop
  | done : Match [] []
  | lit {m v : List Char} (c : Char) : c ≠ '*' → c ≠ '?' → Match m v → Match (c :: m) (c :: v)
  | one {m v : List Char} (c : Char) : Match m v → Match ('?' :: m) (c :: v)
  | skip {m v : List Char} : Match m v → Match ('*' :: m) v
  | more {m v : List Char} (c : Char) : Match ('*' :: m) v → Match ('*' :: m) (c :: v)

/-- `path` is the directory part `dir` (empty or ending in a slash) followed by the last component `base` -/
def SplitPath (path dir base : List Char) : Prop :=
  path = dir ++ base ∧ '/' ∉ base ∧ (dir = [] ∨ dir.getLast? = some '/')

/-- `stem` is the component `base` without its extension -/
def StemOf (base stem : List Char) : Prop :=
  (∃ e, base = stem ++ '.' :: e ∧ '.' ∉ e) ∨ ('.' ∉ base ∧ stem = base)

/-- the proper parent directories named in a path, from the outermost: everything before each slash but a leading one -/
def parents (path : List Char) : List (List Char) :=
  ((List.range path.length).filter fun i => 0 < i && path[i]? == some '/').map fun i => path.take i

/-- versions compared component by component, a missing component counting as 0 -/
def verLt : List Nat → List Nat → Prop
  | [], [] => False
  | [], b :: bs => 0 < b ∨ verLt [] bs
  | _ :: _, [] => False
  | a :: as, b :: bs => a < b ∨ (a = b ∧ verLt as bs)

def verEq : List Nat → List Nat → Prop
  | [], [] => True
  | [], b :: bs => b = 0 ∧ verEq [] bs
  | a :: as, [] => a = 0 ∧ verEq as []
  | a :: as, b :: bs => a = b ∧ verEq as bs

/-- an ASCII letter or underscore -/
def IdentStart (c : Char) : Prop := ('a' ≤ c ∧ c ≤ 'z') ∨ ('A' ≤ c ∧ c ≤ 'Z') ∨ c = '_'
/-- an ASCII letter, digit or underscore -/
def IdentChar (c : Char) : Prop := IdentStart c ∨ ('0' ≤ c ∧ c ≤ '9')

end BX.Spec
