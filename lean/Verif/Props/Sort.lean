import Verif.Model.Sort
import Verif.Spec.Sort
/-
Properties C22 (merge sort) and C24 (quick sort).
-/
namespace BX
open Spec
variable {α : Type}

/-! ### C22 merge sort -/

/-- merging two lists, the left one first among equals -/
def mergeL (cmp : α → α → Int) : List α → List α → List α
  | [], ys => ys
  | xs, [] => xs
  | x :: xs, y :: ys => if cmp x y ≤ 0 then x :: mergeL cmp xs (y :: ys) else y :: mergeL cmp (x :: xs) ys
termination_by xs ys => xs.length + ys.length

theorem mergeL_nil_right (cmp : α → α → Int) (xs : List α) : mergeL cmp xs [] = xs := by cases xs <;> simp [mergeL]

def segment (l : List α) (a b : Nat) : List α := (l.drop a).take (b - a)

theorem segment_cons {l : List α} {a b : Nat} {x : α} (h : a < b) (hx : l[a]? = some x) : segment l a b = x :: segment l (a + 1) b := by
  unfold segment
  obtain ⟨k, rfl⟩ : ∃ k, b = a + 1 + k := ⟨b - (a + 1), by omega⟩
  rw [show a + 1 + k - a = k + 1 by omega, show a + 1 + k - (a + 1) = k by omega]
  obtain ⟨hlt, hx⟩ := List.getElem?_eq_some_iff.mp hx
  rw [List.drop_eq_getElem_cons hlt, List.take_succ_cons, hx]

theorem segment_self (l : List α) (a : Nat) : segment l a a = [] := by simp [segment]

theorem mergeLoop_spec (cmp : α → α → Int) (src : List α) (A AE B BE : Nat) (h1 : A ≤ AE) (h2 : B ≤ BE) (h3 : AE ≤ src.length)
    (h4 : BE ≤ src.length) : mergeLoop cmp src A AE B BE = .ok (mergeL cmp (segment src A AE) (segment src B BE)) := by
  generalize hn : (AE - A) + (BE - B) = n
  induction n generalizing A B with
  | zero =>
    have e1 : A = AE := by omega
    have e2 : B = BE := by omega
    subst e1 e2
    rw [mergeLoop]
    simp [segment_self, mergeL]
  | succ n ih =>
    rw [mergeLoop]
    by_cases hA : A < AE
    · have hxA : src[A]? = some src[A] := List.getElem?_eq_getElem (by omega)
      rw [if_pos hA]
      by_cases hB : B < BE
      · have hxB : src[B]? = some src[B] := List.getElem?_eq_getElem (by omega)
        rw [if_pos hB, hxA, hxB]
        simp only
        rw [segment_cons hA hxA, segment_cons hB hxB, mergeL]
        by_cases hc : cmp src[A] src[B] ≤ 0
        · rw [if_pos hc, if_pos hc, ih (A + 1) B (by omega) (by omega) (by omega), Out.bind_ok, segment_cons hB hxB]
        · rw [if_neg hc, if_neg hc, ih A (B + 1) (by omega) (by omega) (by omega), Out.bind_ok, segment_cons hA hxA]
      · have e : B = BE := by omega
        subst e
        rw [if_neg hB, hxA]
        simp only
        rw [ih (A + 1) B (by omega) (by omega) (by omega), Out.bind_ok, segment_cons hA hxA, segment_self, mergeL_nil_right,
          mergeL_nil_right]
    · have e : A = AE := by omega
      subst e
      have hB : B < BE := by omega
      have hxB : src[B]? = some src[B] := List.getElem?_eq_getElem (by omega)
      rw [if_neg hA, if_pos hB, hxB]
      simp only
      rw [ih A (B + 1) (by omega) (by omega) (by omega), Out.bind_ok, segment_self, segment_cons hB hxB]
      simp [mergeL]

/-- one pass, on lists -/
def passL (cmp : α → α → Int) (m : Nat) (l : List α) : List α :=
  if h : l ≠ [] ∧ 0 < m then mergeL cmp (l.take m) ((l.drop m).take m) ++ passL cmp m (l.drop (m * 2)) else []
termination_by l.length
decreasing_by
  have := List.length_pos_iff.mpr h.1
  simp; omega

theorem mergePass_spec (cmp : α → α → Int) (src : List α) (m start : Nat) (hm : 0 < m) :
    mergePass cmp src src.length m start = .ok (passL cmp m (src.drop start)) := by
  generalize hn : src.length - start = n
  induction n using Nat.strongRecOn generalizing start with
  | ind n ih =>
    rw [mergePass, passL]
    by_cases h : start < src.length
    · have h1 : src.drop start ≠ [] := by simp; omega
      rw [dif_pos ⟨h, hm⟩, dif_pos ⟨h1, hm⟩]
      dsimp only
      generalize hAE : (if start + m > src.length then src.length else start + m) = AE
      generalize hBE : (if AE + m > src.length then src.length else AE + m) = BE
      have a1 : AE = min (start + m) src.length := by rw [← hAE]; split <;> omega
      have a2 : BE = min (AE + m) src.length := by rw [← hBE]; split <;> omega
      rw [mergeLoop_spec cmp src start AE AE BE (by omega) (by omega) (by omega) (by omega), Out.bind_ok,
        ih (src.length - (start + m * 2)) (by omega) (start + m * 2) rfl, Out.bind_ok, List.drop_drop]
      congr 3
      · unfold segment
        have hl : (src.drop start).length = src.length - start := by simp
        rcases Nat.lt_or_ge src.length (start + m) with hlt | hge
        · rw [List.take_of_length_le (by rw [hl]; omega), List.take_of_length_le (by rw [hl]; omega)]
        · rw [show AE - start = m by omega]
      · unfold segment
        rcases Nat.lt_or_ge src.length (start + m) with hlt | hge
        · have e1 : src.drop AE = [] := by simp; omega
          have e2 : src.drop (start + m) = [] := by simp; omega
          rw [e1, e2]; simp
        · rw [show AE = start + m by omega]
          have hl : (src.drop (start + m)).length = src.length - (start + m) := by simp
          rcases Nat.lt_or_ge src.length (start + m + m) with hlt | hge
          · rw [List.take_of_length_le (by rw [hl]; omega), List.take_of_length_le (by rw [hl]; omega)]
          · rw [show BE - (start + m) = m by omega]
      · rw [List.drop_drop]
    · have h1 : src.drop start = [] := by simp; omega
      rw [dif_neg (by omega), dif_neg (by simp [h1])]

theorem mergeL_perm (cmp : α → α → Int) (xs ys : List α) : (mergeL cmp xs ys).Perm (xs ++ ys) := by
  fun_induction mergeL cmp xs ys with
  | case1 ys => simp
  | case2 xs => simp
  | case3 x xs y ys h ih => exact List.Perm.cons x ih
  | case4 x xs y ys h ih =>
    refine (List.Perm.cons y ih).trans ?_
    exact (List.perm_middle (l₁ := x :: xs)).symm

theorem passL_perm (cmp : α → α → Int) (m : Nat) (hm : 0 < m) (l : List α) : (passL cmp m l).Perm l := by
  fun_induction passL cmp m l with
  | case1 l h ih =>
    have h1 := (mergeL_perm cmp (l.take m) ((l.drop m).take m)).append ih
    have h2 : l.take m ++ (l.drop m).take m ++ l.drop (m * 2) = l := by
      rw [List.append_assoc, show m * 2 = m + m by omega, ← List.drop_drop, List.take_append_drop, List.take_append_drop]
    rwa [h2] at h1
  | case2 l h =>
    have : l = [] := Classical.byContradiction fun e => h ⟨e, hm⟩
    subst this; exact List.Perm.nil

theorem mergeL_sorted (cmp : α → α → Int) (hc : Comparator cmp) (xs ys : List α) (h1 : Sorted cmp xs) (h2 : Sorted cmp ys) :
    Sorted cmp (mergeL cmp xs ys) := by
  fun_induction mergeL cmp xs ys with
  | case1 => exact h2
  | case2 => exact h1
  | case3 x xs y ys h ih =>
    have h1' := List.pairwise_cons.mp h1
    have h2' := List.pairwise_cons.mp h2
    refine List.pairwise_cons.mpr ⟨?_, ih h1'.2 h2⟩
    intro z hz
    rcases List.mem_append.mp ((mergeL_perm cmp xs (y :: ys)).mem_iff.mp hz) with hz | hz
    · exact h1'.1 z hz
    · rcases List.mem_cons.mp hz with rfl | hz
      · exact h
      · exact hc.trans x y z h (h2'.1 z hz)
  | case4 x xs y ys h ih =>
    have h1' := List.pairwise_cons.mp h1
    have h2' := List.pairwise_cons.mp h2
    have hyx : cmp y x ≤ 0 := by have := (hc.flip x y).mp (by omega); omega
    refine List.pairwise_cons.mpr ⟨?_, ih h1 h2'.2⟩
    intro z hz
    rcases List.mem_append.mp ((mergeL_perm cmp (x :: xs) ys).mem_iff.mp hz) with hz | hz
    · rcases List.mem_cons.mp hz with rfl | hz
      · exact hyx
      · exact hc.trans y x z hyx (h1'.1 z hz)
    · exact h2'.1 z hz

theorem mergeL_stable (cmp : α → α → Int) (hc : Comparator cmp) (xs ys : List α) (h1 : Sorted cmp xs) (z : α) :
    (mergeL cmp xs ys).filter (fun y => decide (cmp z y = 0)) = (xs ++ ys).filter (fun y => decide (cmp z y = 0)) := by
  fun_induction mergeL cmp xs ys with
  | case1 => simp
  | case2 => simp
  | case3 x xs y ys h ih =>
    rw [List.filter_cons, ih (List.pairwise_cons.mp h1).2, List.cons_append, List.filter_cons]
  | case4 x xs y ys h ih =>
    rw [List.filter_cons, ih h1]
    by_cases hz : cmp z y = 0
    · -- then nothing in `x :: xs` has the rank of `z`
      have hxs : (x :: xs).filter (fun y => decide (cmp z y = 0)) = [] := by
        rw [List.filter_eq_nil_iff]
        intro w hw
        simp only [decide_eq_true_eq]
        intro hzw
        have hxw : cmp x w ≤ 0 := by
          rcases List.mem_cons.mp hw with rfl | hw
          · have h0 := hc.flip w w; omega
          · exact (List.pairwise_cons.mp h1).1 w hw
        have hwz : cmp w z ≤ 0 := by have := hc.flip w z; omega
        exact h (hc.trans x w y hxw (hc.trans w z y hwz (by omega)))
      rw [List.filter_append, List.filter_append, hxs]
      simp [hz]
    · rw [List.filter_append, List.filter_append, List.filter_cons (x := y)]
      simp [hz]

/-- every aligned chunk of length `m` is sorted -/
def ChunksSorted (cmp : α → α → Int) (m : Nat) (l : List α) : Prop := ∀ k, Sorted cmp ((l.drop (k * m)).take m)

theorem ChunksSorted.drop {cmp : α → α → Int} {m : Nat} {l : List α} (h : ChunksSorted cmp m l) (j : Nat) :
    ChunksSorted cmp m (l.drop (m * j)) := by
  intro k
  rw [List.drop_drop, show m * j + k * m = (j + k) * m by rw [Nat.add_mul, Nat.mul_comm m j]]
  exact h (j + k)

theorem mergeL_length (cmp : α → α → Int) (xs ys : List α) : (mergeL cmp xs ys).length = xs.length + ys.length := by
  rw [(mergeL_perm cmp xs ys).length_eq]; simp

theorem passL_sorted (cmp : α → α → Int) (hc : Comparator cmp) (m : Nat) (hm : 0 < m) (l : List α) (h : ChunksSorted cmp m l) :
    ChunksSorted cmp (m * 2) (passL cmp m l) ∧ Stable cmp l (passL cmp m l) := by
  fun_induction passL cmp m l with
  | case1 l hl ih =>
    obtain ⟨ih1, ih2⟩ := ih (h.drop 2)
    have s1 : Sorted cmp (l.take m) := by have := h 0; simpa using this
    have s2 : Sorted cmp ((l.drop m).take m) := by have := h 1; simpa using this
    have hlen := mergeL_length cmp (l.take m) ((l.drop m).take m)
    constructor
    · intro k
      by_cases hfull : m * 2 ≤ l.length
      · have hlen2 : (mergeL cmp (l.take m) ((l.drop m).take m)).length = m * 2 := by
          rw [hlen]; simp; omega
        cases k with
        | zero =>
          rw [Nat.zero_mul, List.drop_zero, ← hlen2, List.take_left]
          exact mergeL_sorted cmp hc _ _ s1 s2
        | succ k =>
          rw [show (k + 1) * (m * 2) = m * 2 + k * (m * 2) by rw [Nat.add_mul]; omega, ← List.drop_drop]
          rw [show List.drop (m * 2) (mergeL cmp (l.take m) ((l.drop m).take m) ++ passL cmp m (l.drop (m * 2))) =
            passL cmp m (l.drop (m * 2)) by rw [← hlen2, List.drop_left]]
          exact ih1 k
      · have e : l.drop (m * 2) = [] := by simp; omega
        have ep : passL cmp m (l.drop (m * 2)) = [] := by rw [e, passL]; simp
        rw [ep, List.append_nil]
        have hs := mergeL_sorted cmp hc _ _ s1 s2
        exact (hs.sublist ((List.take_sublist _ _).trans (List.drop_sublist _ _)))
    · intro z
      rw [List.filter_append, mergeL_stable cmp hc _ _ s1, ih2 z, ← List.filter_append]
      congr 1
      rw [List.append_assoc, show m * 2 = m + m by omega, ← List.drop_drop, List.take_append_drop, List.take_append_drop]
  | case2 l hl =>
    have : l = [] := Classical.byContradiction fun e => hl ⟨e, hm⟩
    subst this
    exact ⟨by intro k; simp [Sorted], by intro z; rfl⟩

theorem stable_trans {cmp : α → α → Int} {a b c : List α} (h1 : Stable cmp a b) (h2 : Stable cmp b c) : Stable cmp a c :=
  fun x => (h2 x).trans (h1 x)

theorem mergeOuter_spec (cmp : α → α → Int) (n m : Nat) (hm : 0 < m) (b : MergeBufs α) (hb : b.base.length = n)
    (ht : b.temp.length = n) :
    ∃ b', mergeOuter cmp n m b = .ok b' ∧ b'.base.length = n ∧ b'.temp.length = n ∧ b'.src.Perm b.src ∧
      (Comparator cmp → ChunksSorted cmp m b.src → Sorted cmp b'.src ∧ Stable cmp b.src b'.src) := by
  generalize hk : n - m = k
  induction k using Nat.strongRecOn generalizing m b with
  | ind k ih =>
    have hsrc : b.src.length = n := by unfold MergeBufs.src; split <;> assumption
    rw [mergeOuter]
    by_cases h : m < n
    · have hp : mergePass cmp b.src n m 0 = .ok (passL cmp m b.src) := by
        have := mergePass_spec cmp b.src m 0 hm
        rwa [hsrc, List.drop_zero] at this
      have hperm := passL_perm cmp m hm b.src
      have hpl : (passL cmp m b.src).length = n := by rw [hperm.length_eq, hsrc]
      have hstore : (b.store (passL cmp m b.src)).src = passL cmp m b.src ∧
          (b.store (passL cmp m b.src)).base.length = n ∧ (b.store (passL cmp m b.src)).temp.length = n := by
        generalize passL cmp m b.src = d at hpl
        unfold MergeBufs.store
        split
        · have : b.temp.drop n = [] := by simp [ht]
          simp [MergeBufs.src, hpl, hb, ht, this]
        · have : b.base.drop n = [] := by simp [hb]
          simp [MergeBufs.src, hpl, hb, ht, this]
      rw [dif_pos ⟨h, hm⟩, hp, Out.bind_ok]
      obtain ⟨b', h1, h2, h3, h4, h5⟩ := ih (n - m * 2) (by omega) (m * 2) (by omega) (b.store (passL cmp m b.src)) hstore.2.1 hstore.2.2 rfl
      refine ⟨b', h1, h2, h3, ?_, ?_⟩
      · rw [hstore.1] at h4; exact h4.trans hperm
      · intro hc hs
        rw [hstore.1] at h5
        obtain ⟨p1, p2⟩ := passL_sorted cmp hc m hm b.src hs
        obtain ⟨q1, q2⟩ := h5 hc p1
        exact ⟨q1, stable_trans p2 q2⟩
    · rw [dif_neg (by omega)]
      refine ⟨b, rfl, hb, ht, List.Perm.refl _, ?_⟩
      intro _ hs
      refine ⟨?_, fun _ => rfl⟩
      have := hs 0
      simpa [List.take_of_length_le (show b.src.length ≤ m by omega)] using this

/-- **C22**. For every array, every content of the temporary memory and every comparator: the routine stays inside its arrays and
leaves a permutation of the input; if the comparator is an ordering, the result is sorted and stable. -/
theorem C22_mergesort (cmp : α → α → Int) (a temp : List α) (ht : temp.length = a.length) :
    ∃ r, mergesortR2 cmp a temp = .ok r ∧ r.Perm a ∧
      (Comparator cmp → Sorted cmp r ∧ Stable cmp a r) := by
  obtain ⟨b, h1, h2, h3, h4, h5⟩ := mergeOuter_spec cmp a.length 1 (by omega) { base := a, temp := temp, srcIsBase := true } rfl ht
  have hsrc : (if b.srcIsBase then b.base else b.temp.take a.length ++ b.base.drop a.length) = b.src := by
    unfold MergeBufs.src
    split
    · rfl
    · rw [List.take_of_length_le (by omega)]
      have : b.base.drop a.length = [] := by simp; omega
      rw [this, List.append_nil]
  refine ⟨b.src, ?_, h4, ?_⟩
  · rw [mergesortR2, h1, Out.bind_ok, hsrc]
  · intro hc
    apply h5 hc
    intro k
    have : ∀ l : List α, Sorted cmp (l.take 1) := by intro l; cases l <;> simp [Sorted]
    exact this _

/-- the result is determined: two stable sorted lists with the same ranks are equal -/
theorem C22_unique (cmp : α → α → Int) (hc : Comparator cmp) (a r s : List α) (hr : Sorted cmp r) (hs : Sorted cmp s)
    (h1 : Stable cmp a r) (h2 : Stable cmp a s) : r = s := by
  have hrs : Stable cmp r s := fun x => (h2 x).trans (h1 x).symm
  clear h1 h2
  have hrefl : ∀ x, cmp x x = 0 := by
    intro x; have := hc.flip x x; omega
  induction r generalizing s with
  | nil =>
    cases s with
    | nil => rfl
    | cons y s => have := hrs y; simp [hrefl] at this
  | cons x r ih =>
    cases s with
    | nil => have := hrs x; simp [hrefl] at this
    | cons y s =>
      have mem1 : x ∈ (y :: s) := by
        have : x ∈ (y :: s).filter (fun w => decide (cmp x w = 0)) := by rw [hrs x]; simp [hrefl]
        exact (List.mem_filter.mp this).1
      have mem2 : y ∈ (x :: r) := by
        have : y ∈ (x :: r).filter (fun w => decide (cmp y w = 0)) := by rw [← hrs y]; simp [hrefl]
        exact (List.mem_filter.mp this).1
      have hyx : cmp y x ≤ 0 := by
        rcases List.mem_cons.mp mem1 with rfl | h
        · rw [hrefl]; omega
        · exact (List.pairwise_cons.mp hs).1 x h
      have hxy : cmp x y ≤ 0 := by
        rcases List.mem_cons.mp mem2 with rfl | h
        · rw [hrefl]; omega
        · exact (List.pairwise_cons.mp hr).1 y h
      have hxy0 : cmp x y = 0 := by have := hc.flip y x; omega
      have hx := hrs x
      rw [List.filter_cons, List.filter_cons, if_pos (by simp [hxy0]), if_pos (by simp [hrefl])] at hx
      simp only [List.cons.injEq] at hx
      obtain ⟨rfl, hx⟩ := hx
      congr 1
      apply ih s (List.pairwise_cons.mp hr).2 (List.pairwise_cons.mp hs).2
      intro z
      have hz := hrs z
      rw [List.filter_cons, List.filter_cons] at hz
      by_cases hc0 : cmp z y = 0
      · simpa [hc0] using hz
      · simpa [hc0] using hz

/-- non-vacuity: comparing pairs by their first component is an ordering, and the order of equal pairs shows -/
example : Comparator (fun x y : Int × Int => x.1 - y.1) ∧
    mergesortR2 (fun x y : Int × Int => x.1 - y.1) [(2, 0), (1, 0), (2, 1), (0, 7), (1, 1)] [(9, 9), (9, 9), (9, 9), (9, 9), (9, 9)] =
      .ok [(0, 7), (1, 0), (1, 1), (2, 0), (2, 1)] := by
  refine ⟨⟨fun x y => by omega, fun x y z => by omega⟩, ?_⟩
  have h0 := C22_mergesort (fun x y : Int × Int => x.1 - y.1) [(2, 0), (1, 0), (2, 1), (0, 7), (1, 1)] [(9, 9), (9, 9), (9, 9), (9, 9), (9, 9)] rfl
  obtain ⟨r, h1, _, h3⟩ := h0
  have hc : Comparator (fun x y : Int × Int => x.1 - y.1) := ⟨fun x y => by omega, fun x y z => by omega⟩
  rw [h1]
  congr 1
  refine C22_unique _ hc [(2, 0), (1, 0), (2, 1), (0, 7), (1, 1)] r _ (h3 hc).1 ?_ (h3 hc).2 ?_
  · simp [Sorted]
  · intro x
    have : ∀ k : Int, (fun y : Int × Int => decide (k - y.1 = 0)) = fun y => decide (y.1 = k) := by
      intro k; funext y; congr 1; exact propext ⟨fun h => by omega, fun h => by omega⟩
    simp only [this]
    simp only [List.filter_cons, List.filter_nil]
    repeat' split
    all_goals simp_all
    all_goals omega

/-! ### C24 quick sort -/

theorem qLeft_spec (cmp : α → α → Int) (a : List α) (test left right : Nat) (ht : test < a.length) (hl : left < a.length)
    (hr : right < a.length) : ∃ l, qLeft cmp a test left right = .ok l ∧ left ≤ l ∧ (l = left ∨ l ≤ right) ∧
      (l < right → ¬ cmp (a[l]?.getD a[0]) (a[test]) < 0) := by
  generalize hk : right - left = k
  induction k generalizing left with
  | zero =>
    rw [qLeft, List.getElem?_eq_getElem hl, List.getElem?_eq_getElem ht]
    simp only
    rw [if_neg (by omega)]
    exact ⟨left, rfl, Nat.le_refl _, Or.inl rfl, by omega⟩
  | succ k ih =>
    rw [qLeft, List.getElem?_eq_getElem hl, List.getElem?_eq_getElem ht]
    simp only
    by_cases hc : cmp a[left] a[test] < 0 ∧ left < right
    · rw [if_pos hc]
      obtain ⟨l, h1, h2, h3, h4⟩ := ih (left + 1) (by omega) (by omega)
      exact ⟨l, h1, by omega, by omega, h4⟩
    · rw [if_neg hc]
      refine ⟨left, rfl, Nat.le_refl _, Or.inl rfl, ?_⟩
      intro hlt
      rw [List.getElem?_eq_getElem hl]
      exact fun h => hc ⟨h, hlt⟩

theorem qRight_spec (cmp : α → α → Int) (a : List α) (test left right : Nat) (ht : test < a.length)
    (hr : right < a.length) : ∃ r, qRight cmp a test left right = .ok r ∧ r ≤ right ∧ (r = right ∨ left ≤ r) ∧
      (left ≤ test → test ≤ right → ¬ cmp a[test] a[test] > 0 → test ≤ r) := by
  generalize hk : right - left = k
  induction k generalizing right with
  | zero =>
    rw [qRight, List.getElem?_eq_getElem hr, List.getElem?_eq_getElem ht]
    simp only
    rw [if_neg (by omega)]
    exact ⟨right, rfl, Nat.le_refl _, Or.inl rfl, by omega⟩
  | succ k ih =>
    rw [qRight, List.getElem?_eq_getElem hr, List.getElem?_eq_getElem ht]
    simp only
    by_cases hc : cmp a[right] a[test] > 0 ∧ left < right
    · rw [if_pos hc]
      obtain ⟨r, h1, h2, h3, h4⟩ := ih (right - 1) (by omega) (by omega)
      refine ⟨r, h1, by omega, by omega, ?_⟩
      intro t1 t2 t3
      by_cases he : test = right
      · subst he; exact absurd hc.1 t3
      · exact h4 t1 (by omega) t3
    · rw [if_neg hc]
      exact ⟨right, rfl, Nat.le_refl _, Or.inl rfl, fun _ h _ => h⟩

theorem set_set_perm (a : List α) (i j : Nat) (hi : i < a.length) (hj : j < a.length) (hij : i < j) :
    ((a.set i a[j]).set j a[i]).Perm a := by
  have e1 : a = a.take i ++ a[i] :: (a.drop (i + 1)).take (j - (i + 1)) ++ a[j] :: a.drop (j + 1) := by
    have h1 : a.drop i = a[i] :: a.drop (i + 1) := List.drop_eq_getElem_cons hi
    have h2 : a.drop j = a[j] :: a.drop (j + 1) := List.drop_eq_getElem_cons hj
    have h3 : a.drop (i + 1) = (a.drop (i + 1)).take (j - (i + 1)) ++ a.drop j := by
      conv => lhs; rw [← List.take_append_drop (j - (i + 1)) (a.drop (i + 1)), List.drop_drop]
      rw [show i + 1 + (j - (i + 1)) = j by omega]
    conv => lhs; rw [← List.take_append_drop i a, h1, h3, h2]
    simp
  have hti : (a.take i).length = i := by simp; omega
  have htm : ((a.drop (i + 1)).take (j - (i + 1))).length = j - (i + 1) := by simp; omega
  generalize hx : a[i] = x at *
  generalize hy : a[j] = y at *
  generalize a.take i = p at *
  generalize (a.drop (i + 1)).take (j - (i + 1)) = m at *
  generalize a.drop (j + 1) = s at *
  clear hx hy
  subst e1
  have e2 : ((p ++ x :: m ++ y :: s).set i y).set j x = p ++ y :: m ++ x :: s := by
    rw [List.append_assoc, List.set_append_right i y (by omega), hti, Nat.sub_self, List.cons_append, List.set_cons_zero,
      List.set_append_right j x (by omega), hti]
    obtain ⟨k, rfl⟩ : ∃ k, j = i + 1 + k := ⟨j - (i + 1), by omega⟩
    rw [show i + 1 + k - i = k + 1 by omega, List.set_cons_succ, List.set_append_right k x (by omega),
      show k - m.length = 0 by omega, List.set_cons_zero]
    simp
  rw [e2, List.append_assoc, List.append_assoc]
  refine List.Perm.append_left p ?_
  simp only [List.cons_append]
  have : (y :: (m ++ x :: s)).Perm (y :: x :: (m ++ s)) := List.Perm.cons y List.perm_middle
  refine this.trans ((List.Perm.swap x y _).trans ?_)
  exact List.Perm.cons x List.perm_middle.symm

theorem qPart_spec (cmp : α → α → Int) (fuel : Nat) (a : List α) (test left right : Nat) (ht : test < a.length)
    (hl : left < a.length) (hr : right < a.length) (hlr : left ≤ right + 1) (hf : right + 1 - left < fuel) :
    ∃ a' l, qPart cmp fuel a test left right = .ok (a', l) ∧ a'.Perm a ∧ left ≤ l ∧ l < a.length ∧
      (0 < left ∨ (test ≤ right ∧ 0 < test ∧ ¬ cmp a[test] a[test] > 0) → 0 < l) := by
  induction fuel generalizing a left right with
  | zero => omega
  | succ fuel ih =>
    rw [qPart]
    obtain ⟨l, h1, h2, h3, _⟩ := qLeft_spec cmp a test left right ht hl hr
    rw [h1, Out.bind_ok]
    obtain ⟨r, g1, g2, g3, g4⟩ := qRight_spec cmp a test l right ht hr
    rw [g1, Out.bind_ok]
    have hla : l < a.length := by omega
    by_cases hge : l ≥ r
    · rw [if_pos hge]
      refine ⟨a, l, rfl, List.Perm.refl _, h2, hla, ?_⟩
      rintro (h | ⟨t1, t2, t3⟩)
      · omega
      · rcases Nat.eq_zero_or_pos l with rfl | hp
        · have := g4 (by omega) t1 t3; omega
        · exact hp
    · rw [if_neg hge]
      have hra : r < a.length := by omega
      rw [swapAt, List.getElem?_eq_getElem hla, List.getElem?_eq_getElem hra]
      simp only [Out.bind_ok]
      have hperm := set_set_perm a l r hla hra (by omega)
      have hlen : ((a.set l a[r]).set r a[l]).length = a.length := by simp
      obtain ⟨a', l', k1, k2, k3, k4, k5⟩ := ih ((a.set l a[r]).set r a[l]) (l + 1) (r - 1) (by omega) (by omega) (by omega)
        (by omega) (by omega)
      exact ⟨a', l', k1, k2.trans hperm, by omega, by omega, fun _ => by omega⟩

/-- **C24** (partial). For every array and every comparator that does not call an element greater than itself, the routine ends,
never leaves the array and produces a permutation of the input. What is missing is that the result is sorted: it need not be. -/
theorem C24_permutation_partial (cmp : α → α → Int) (hc : ∀ x, ¬ cmp x x > 0) (a : List α) :
    ∃ r, qsortR2 cmp a = .ok r ∧ r.Perm a := by
  have key : ∀ fuel (a : List α), a.length ≤ fuel → ∃ r, qsortF cmp fuel a = .ok r ∧ r.Perm a := by
    intro fuel
    induction fuel with
    | zero =>
      intro a h
      exact ⟨a, by rw [qsortF, if_pos (by omega)], List.Perm.refl _⟩
    | succ fuel ih =>
      intro a h
      rw [qsortF]
      by_cases h2 : a.length < 2
      · rw [if_pos h2]; exact ⟨a, rfl, List.Perm.refl _⟩
      · rw [if_neg h2]
        obtain ⟨a', l, h3, h4, h5, h6, h7⟩ := qPart_spec cmp (a.length + 1) a (a.length / 2) 0 (a.length - 1) (by omega) (by omega)
          (by omega) (by omega) (by omega)
        have hl := h7 (Or.inr ⟨by omega, by omega, hc _⟩)
        rw [h3, Out.bind_ok]
        simp only
        have hlen := h4.length_eq
        obtain ⟨x, x1, x2⟩ := ih (a'.take l) (by simp; omega)
        obtain ⟨y, y1, y2⟩ := ih (a'.drop l) (by simp; omega)
        rw [x1, Out.bind_ok, y1, Out.bind_ok]
        refine ⟨x ++ y, rfl, ((x2.append y2).trans ?_).trans h4⟩
        rw [List.take_append_drop]
  exact key a.length a (Nat.le_refl _)

/-- integer comparison as a comparator -/
def intCmp (x y : Int) : Int := if x < y then -1 else if x > y then 1 else 0

theorem intCmp_comparator : Comparator intCmp := by
  constructor
  · intro x y; unfold intCmp; repeat' split
    all_goals omega
  · intro x y z; unfold intCmp; repeat' split
    all_goals omega

/-- The full property is false: because the pivot is a place whose content the exchanges change, `1 0 1 2` becomes `1 0 1 2`. -/
theorem C24_false_unsorted : qsortR2 intCmp [1, 0, 1, 2] = .ok [1, 0, 1, 2] ∧ ¬ Sorted intCmp [1, 0, 1, 2] := by
  refine ⟨?_, ?_⟩
  · decide +kernel
  · simp [Sorted, intCmp]

/-- non-vacuity: many arrays are sorted all the same -/
example : qsortR2 intCmp [3, 1, 2, 0] = .ok [0, 1, 2, 3] := by
  decide +kernel

end BX
