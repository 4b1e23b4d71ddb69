import Verif.Spec.Crash
/-
What is found after a crash in a registration.
-/
namespace BX.Spec
open XBT

/-- the file opens and shows the elements of `D`, and once `allRegistered` has succeeded, the symbols of `D` as well, and no others -/
def RecoversAs (E : Env) (f : Img) (D : Doc) : Prop :=
  OpensAs E f [{ D with ready := fun _ => false }] ∧ ∀ n g, openFile E false n f = .ok (some g) → ∀ R, g.pool.allRegistered E = .ok (R, true) → 
    Shows R { D with ready := fun _ => true } ∧ ∀ b, (R.tab b).maxId + 1 = (D.syms b).length

/-- the document with one more symbol -/
def Doc.withSym (D : Doc) (tags : Bool) (name : BStr) (t : XBT) : Doc := D.setSyms tags (D.syms tags ++ [⟨name, t⟩]) false

end BX.Spec
