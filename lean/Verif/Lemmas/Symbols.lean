import Verif.Model.Symbols
import Verif.Props.Compare
namespace BX
open XBT Spec

/-- contents of a C string: no NUL inside -/
def NoNul (s : BStr) : Prop := ∀ x ∈ s, x ≠ 0

instance (s : BStr) : Decidable (NoNul s) := inferInstanceAs (Decidable (∀ x ∈ s, x ≠ 0))

theorem bytesLt_irrefl (a : BStr) : ¬ BytesLt a a := by
  induction a with
  | nil => simp [BytesLt]
  | cons x a ih => simp [BytesLt, ih]

theorem bytesLt_trans {a b c : BStr} (h1 : BytesLt a b) (h2 : BytesLt b c) : BytesLt a c := by
  induction a generalizing b c with
  | nil => cases c with
    | nil => cases b <;> simp [BytesLt] at h2
    | cons => simp [BytesLt]
  | cons x a ih => cases b with
    | nil => simp [BytesLt] at h1
    | cons y b => cases c with
      | nil => simp [BytesLt] at h2
      | cons z c =>
        simp only [BytesLt] at *
        rcases h1 with h1 | ⟨rfl, h1⟩
        · rcases h2 with h2 | ⟨rfl, h2⟩
          · left; omega
          · left; omega
        · rcases h2 with h2 | ⟨rfl, h2⟩
          · left; omega
          · right; exact ⟨rfl, ih h1 h2⟩

/-- The binary search on a comparison that is positive, then perhaps once zero, then negative. -/
theorem bsearch_spec (cmp : Nat → Int) (n : Nat) (hm : ∀ i j, i < j → j < n → (0 ≤ cmp j → 0 < cmp i) ∧ (cmp i ≤ 0 → cmp j < 0))
    (B hi : Nat) (hhi : hi ≤ n) (hB : B ≤ hi) (h1 : ∀ i, i < B → 0 < cmp i) (h2 : ∀ i, hi ≤ i → i < n → cmp i < 0) :
    match bsearch cmp B hi with
    | .hit M => M < n ∧ cmp M = 0
    | .miss P => P ≤ n ∧ (∀ i, i < P → 0 < cmp i) ∧ ∀ i, P ≤ i → i < n → cmp i < 0 := by
  fun_induction bsearch cmp B hi with
  | case1 B hi h M h0 => exact ⟨by omega, h0⟩
  | case2 B hi h M h0 hn ih =>
    apply ih (by omega) (by omega) h1
    intro i hi1 hi2
    by_cases he : i = M
    · rw [he]; exact hn
    · exact (hm M i (by omega) hi2).2 (by omega)
  | case3 B hi h M h0 hn ih =>
    apply ih hhi (by omega) _ h2
    intro i hi1
    by_cases he : i = M
    · rw [he]; omega
    · exact (hm i M (by omega) (by omega)).1 (by omega)
  | case4 B hi h =>
    have : B = hi := by omega
    subst this
    exact ⟨hhi, h1, h2⟩

/-- A strictly increasing list of names. -/
def Increasing (ns : List BStr) : Prop := ns.Pairwise BytesLt

theorem Increasing.lt {ns : List BStr} (h : Increasing ns) {i j : Nat} (hij : i < j) (hj : j < ns.length) :
    BytesLt (ns[i]'(by omega)) ns[j] := List.pairwise_iff_getElem.mp h i j (by omega) hj hij

theorem search_names (ns : List BStr) (hs : Increasing ns) (hn : ∀ x ∈ ns, NoNul x) (s : BStr) (hsn : NoNul s) :
    match bsearch (fun M => strcmpB s (ns.getD M [])) 0 ns.length with
    | .hit M => ns[M]? = some s
    | .miss P => P ≤ ns.length ∧ (∀ x ∈ ns.take P, BytesLt x s) ∧ ∀ x ∈ ns.drop P, BytesLt s x := by
  have tells : ∀ i (h : i < ns.length), Tells BytesLt (strcmpB s (ns.getD i [])) s ns[i] := by
    intro i h
    rw [List.getD_eq_getElem?_getD, List.getElem?_eq_getElem h, Option.getD_some]
    exact strcmpB_tells s _ hsn (hn _ (List.getElem_mem h))
  have := bsearch_spec (fun M => strcmpB s (ns.getD M [])) ns.length (by
      intro i j hij hj
      have ti := tells i (by omega)
      have tj := tells j hj
      have hlt := hs.lt hij hj
      constructor
      · intro h0
        apply ti.2.2.mpr
        rcases Int.lt_or_eq_of_le h0 with h | h
        · exact bytesLt_trans hlt (tj.2.2.mp h)
        · rw [tj.2.1.mp h.symm]; exact hlt
      · intro h0
        apply tj.1.mpr
        rcases Int.lt_or_eq_of_le h0 with h | h
        · exact bytesLt_trans (ti.1.mp h) hlt
        · rw [ti.2.1.mp h]; exact hlt) 0 ns.length (Nat.le_refl _) (by omega) (by omega) (by omega)
  revert this
  split
  · rintro ⟨h1, h2⟩
    have := (tells _ h1).2.1.mp h2
    rw [List.getElem?_eq_getElem h1, this]
  · rintro ⟨h1, h2, h3⟩
    refine ⟨h1, ?_, ?_⟩
    · intro x hx
      obtain ⟨i, hi, rfl⟩ := List.mem_iff_getElem.mp hx
      simp only [List.length_take] at hi
      rw [List.getElem_take]
      exact (tells i (by omega)).2.2.mp (h2 i (by omega))
    · intro x hx
      obtain ⟨i, hi, rfl⟩ := List.mem_iff_getElem.mp hx
      simp only [List.length_drop] at hi
      rw [List.getElem_drop]
      exact (tells _ (by omega)).1.mp (h3 _ (by omega) (by omega))

end BX
