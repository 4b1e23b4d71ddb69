import Verif.Model.NodeName
/-
Property C45, for the names the creator gives to nodes.
-/
namespace BX

/-- C45: for every table of tags the creator names an identification of the table by its name, and no other identification from 0 on. Two reserved ones have different names. -/
theorem C45_creator (names : List BStr) (a b : Int) :
    (0 ≤ a → creatorNodeName names a = .ok names[a.toNat]?) ∧
    ((-10 ≤ a ∧ a ≤ -1) → (-10 ≤ b ∧ b ≤ -1) → creatorNodeName names a = creatorNodeName names b → a = b) ∧ (a < -10 → creatorNodeName names a = .ok none) := by
  have neg : ∀ a : Int, (-10 ≤ a ∧ a ≤ -1) → creatorNodeName names a = .ok (creatorReserved a) := by
    intro a h
    unfold creatorNodeName
    rw [if_neg (by simp only [Decidable.not_not]; omega), if_neg (by omega)]
    rfl
  have key : ∀ i j : Fin 10, creatorReserved (-1 - (i.val : Int)) = creatorReserved (-1 - (j.val : Int)) → i = j := by decide +kernel
  have conv : ∀ a : Int, (-10 ≤ a ∧ a ≤ -1) → ∃ i : Fin 10, a = -1 - (i.val : Int) := fun a h => ⟨⟨(-1 - a).toNat, by omega⟩, by simp only; omega⟩
  refine ⟨?_, ?_, ?_⟩
  · intro ha
    unfold creatorNodeName
    by_cases hl : a < names.length
    · rw [if_neg (by simp only [Decidable.not_not]; omega), if_pos ha, List.getElem?_eq_getElem (by omega)]
      rfl
    · rw [if_pos (by omega), List.getElem?_eq_none (by omega)]
      rfl
  · intro ha hb h
    rw [neg a ha, neg b hb, Out.ok.injEq] at h
    obtain ⟨i, rfl⟩ := conv a ha
    obtain ⟨j, rfl⟩ := conv b hb
    rw [key i j h]
  · intro h
    unfold creatorNodeName
    rw [if_pos (by omega)]
    rfl

/-- C45 does not extend to these names: of the ten reserved tags only `NULL` has the name that the reader gives it, and `transaction` has none. -/
theorem C45_creator_false (names : List BStr) (a : Int) (h : -10 ≤ a ∧ a ≤ -2) : creatorNodeName names a ≠ .ok (some (xtnr2str a)) ∧ creatorNodeName names (-10) = .ok none := by
  have neg : ∀ a : Int, (-10 ≤ a ∧ a ≤ -1) → creatorNodeName names a = .ok (creatorReserved a) := by
    intro a h
    unfold creatorNodeName
    rw [if_neg (by simp only [Decidable.not_not]; omega), if_neg (by omega)]
    rfl
  rw [neg a (by omega), neg (-10) (by decide)]
  refine ⟨?_, rfl⟩
  rw [Ne, Out.ok.injEq]
  have key : ∀ i : Fin 9, creatorReserved (-2 - (i.val : Int)) ≠ some (xtnr2str (-2 - (i.val : Int))) := by decide +kernel
  have := key ⟨(-2 - a).toNat, by omega⟩
  rwa [show (-2 - (((-2 - a).toNat : Nat) : Int)) = a by omega] at this

/-- a table of two names -/
example : creatorNodeName [b8 "a", b8 "b"] 1 = .ok (some (b8 "b")) ∧ creatorNodeName [b8 "a", b8 "b"] 2 = .ok none ∧ creatorNodeName [b8 "a", b8 "b"] (-6) = .ok (some (b8 "PAYLOAD")) := by decide +kernel

end BX
