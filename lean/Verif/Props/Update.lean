import Verif.Model.Update
import Verif.Props.Open
import Verif.Props.Source
/-
Property C80: bringing the values of a document to the types of their symbols.
-/
namespace BX
open XBT Spec

theorem onCheck_fold (l : List (Int × Nat)) (s : ConvStats) : l.foldl onCheckTypes s = s := by
  induction l generalizing s with
  | nil => rfl
  | cons a l ih => exact ih s

/-- C80: after any history, `CheckAndUpdateTypes` of a document without a root, or whose root has a finite tree below it, answers that all is well and changes
nothing, whatever types the values have. -/
theorem C80_update (E : Env) (maxSize : Nat) (h1 : 0x4000 ≤ maxSize) (h2 : maxSize < 2147483648) (P : Pool) (D : Doc) (h : Sess E maxSize P D) (loose : Bool) (fuel : Nat)
    (hr : D.root = 0 ∨ ∃ T, D.root = T.top ∧ D.forest.Elem T.top ∧ D.Below T ∧ D.steps T ≤ fuel) : P.checkAndUpdateTypes loose fuel = .ok (P, true) := by
  obtain ⟨els, V, fl, k⟩ := sess_keeps h1 h2 h
  have hw : ∃ l, P.walkRoot fuel = .ok l := by
    unfold Pool.walkRoot
    rw [k.root]
    rcases hr with hr | ⟨T, a, b, c, d⟩
    · exact ⟨[], by rw [if_pos (by rw [hr])]; rfl⟩
    · split
      · exact ⟨[], rfl⟩
      · rw [a]; exact ⟨_, C63_walk_partial E maxSize h1 h2 P D h T b c 0 fuel d⟩
  obtain ⟨l, hl⟩ := hw
  unfold Pool.checkAndUpdateTypes
  simp only [hl, Out.ok_bind, onCheck_fold, if_true]
  rfl

/-- C80 (false in general): a document in which an element below the root has a number where its symbol has the type of texts; `CheckAndUpdateTypes` answers that all is well, and the
element is as before. -/
theorem C80_update_false : ∃ P D, Sess demoEnv 0x8000 P D ∧ D.root = 140 ∧ 164 ∈ D.forest.at' (.kids 140) ∧ P.eId (164 : Nat) = .ok 0 ∧ P.symType true 0 = .ok (some STRING) ∧ P.eType (164 : Nat) = .ok INT32.code ∧
    ∀ loose, P.checkAndUpdateTypes loose 20 = .ok (P, true) := by
  obtain ⟨D, h, a1, a2, a3, a4, a5, a6, a7, a8, a9, a10, a11, a12, a13, a14, a15⟩ := box_sess
  rcases C67_alter demoEnv 0x8000 (by decide) (by decide) box5 D h true 0 STRING with ⟨s, -, h2, -, -, Q, h5, h6⟩ | hx
  · obtain ⟨els, V, fl, k⟩ := sess_keeps (by decide) (by decide) h6
    have m := k.elem 164 ((k.lists.mem 164).1 a3)
    have i1 := m.eId k.sees.size.1
    have i2 := m.eType k.sees.size.1
    have hk : D.forest.at' (.kids 140) = [164] := by
      have := a4
      unfold boxTree at this
      unfold Doc.Below at this
      exact this.1
    refine ⟨Q, _, h6, a6, by show 164 ∈ D.forest.at' (.kids 140); rw [hk]; simp, by rw [i1]; exact congrArg _ a14,
      (C67_asked demoEnv 0x8000 (by decide) (by decide) box5 Q D h true 0 STRING h5 (a1 _)).1, by rw [i2]; exact congrArg (Out.ok ∘ code) a15, fun loose => ?_⟩
    refine C80_update demoEnv 0x8000 (by decide) (by decide) Q _ h6 loose 20 (Or.inr ⟨boxTree, a6, a2, ?_, ?_⟩)
    · exact a4
    · have hs : D.steps boxTree ≤ 20 := by unfold boxTree; simp only [Doc.steps, Doc.stepsAll, a9, a10]; decide
      exact hs
  · exact absurd ⟨⟨b8 "i", INT32⟩, by decide, by rw [a7]; rfl, by decide, by decide⟩ hx.1

end BX
