/-
Circles of links, as functions: joining, removing, replacing.
-/
namespace BX

/-- changing a function at a point -/
def upd (f : Nat → Nat) (e v : Nat) : Nat → Nat := fun x => if x = e then v else f x

theorem upd_self (f : Nat → Nat) (e v : Nat) : upd f e v e = v := by unfold upd; rw [if_pos rfl]
theorem upd_ne (f : Nat → Nat) {e x : Nat} (v : Nat) (h : x ≠ e) : upd f e v x = f x := by unfold upd; rw [if_neg h]

/-- neighbours in a list are linked in both directions -/
def Links (nx pv : Nat → Nat) : List Nat → Prop
  | [] => True
  | [_] => True
  | x :: y :: l => (nx x = y ∧ pv y = x) ∧ Links nx pv (y :: l)

/-- … and the last is linked to the first -/
def Circle (nx pv : Nat → Nat) : List Nat → Prop
  | [] => True
  | a :: l => Links nx pv (a :: l ++ [a])

theorem Links_append {nx pv : Nat → Nat} (a : Nat) (m : List Nat) : ∀ l : List Nat, Links nx pv (l ++ a :: m) ↔ Links nx pv (l ++ [a]) ∧ Links nx pv (a :: m)
  | [] => by simp [Links]
  | [x] => by simp [Links]
  | x :: y :: l => by
    have := Links_append (nx := nx) (pv := pv) a m (y :: l)
    simp only [List.cons_append, Links] at this ⊢
    rw [this]
    simp only [and_assoc]

theorem Links_congr {nx pv nx' pv' : Nat → Nat} : ∀ l : List Nat, (∀ x ∈ l.dropLast, nx' x = nx x) → (∀ y ∈ l.tail, pv' y = pv y) → Links nx pv l → Links nx' pv' l
  | [], _, _, _ => trivial
  | [_], _, _, _ => trivial
  | x :: y :: l, h1, h2, h => by
    simp only [Links] at h ⊢
    refine ⟨⟨?_, ?_⟩, Links_congr (y :: l) ?_ ?_ h.2⟩
    · rw [h1 x (by simp [List.dropLast])]; exact h.1.1
    · rw [h2 y (by simp)]; exact h.1.2
    · intro z hz; exact h1 z (by simp [List.dropLast, hz])
    · intro z hz
      exact h2 z (by simp only [List.tail_cons] at hz ⊢; exact List.mem_cons_of_mem _ hz)

theorem Ring_congr {nx pv nx' pv' : Nat → Nat} {l : List Nat} (h1 : ∀ x ∈ l, nx' x = nx x) (h2 : ∀ y ∈ l, pv' y = pv y) (h : Circle nx pv l) : Circle nx' pv' l := by
  cases l with
  | nil => trivial
  | cons a l =>
    refine Links_congr _ ?_ ?_ h
    · intro x hx
      rw [List.dropLast_concat] at hx
      exact h1 x hx
    · intro y hy
      simp only [List.cons_append, List.tail_cons, List.mem_append, List.mem_singleton] at hy
      rcases hy with hy | rfl
      · exact h2 y (by simp [hy])
      · exact h2 y (by simp)

/-- a circle can be read from any of its elements -/
theorem Ring_rot1 {nx pv : Nat → Nat} (a : Nat) (l : List Nat) : Circle nx pv (a :: l) ↔ Circle nx pv (l ++ [a]) := by
  cases l with
  | nil => exact Iff.rfl
  | cons b m =>
    show Links nx pv (a :: b :: m ++ [a]) ↔ Links nx pv (b :: m ++ [a] ++ [b])
    have h1 := Links_append (nx := nx) (pv := pv) b (m ++ [a]) [a]
    have h2 := Links_append (nx := nx) (pv := pv) a [b] (b :: m)
    simp only [List.cons_append, List.nil_append, List.append_assoc] at h1 h2 ⊢
    rw [h1, h2]
    simp only [Links, and_true]
    exact ⟨fun h => ⟨h.2, h.1⟩, fun h => ⟨h.2, h.1⟩⟩

theorem Circle_rot {nx pv : Nat → Nat} : ∀ x y : List Nat, Circle nx pv (x ++ y) ↔ Circle nx pv (y ++ x)
  | [], y => by simp
  | a :: x, y => by
    have h := Circle_rot (nx := nx) (pv := pv) x (y ++ [a])
    rw [List.cons_append, Ring_rot1, List.append_assoc, h, List.append_assoc]
    rfl

/-- the links of a circle with the last element named -/
theorem Circle_iff {nx pv : Nat → Nat} {a : Nat} {l i : List Nat} {z : Nat} (h : a :: l = i ++ [z]) :
    Circle nx pv (a :: l) ↔ Links nx pv (a :: l) ∧ nx z = a ∧ pv a = z := by
  show Links nx pv (a :: l ++ [a]) ↔ _
  rw [h, List.append_assoc]
  have := Links_append (nx := nx) (pv := pv) z [a] i
  rw [show ([z] ++ [a] : List Nat) = z :: [a] from rfl, this]
  simp only [Links, and_true]

theorem exists_last (a : Nat) (l : List Nat) : ∃ i z, a :: l = i ++ [z] :=
  ⟨(a :: l).dropLast, (a :: l).getLast (by simp), (List.dropLast_concat_getLast _).symm⟩

theorem last_mem {a z : Nat} {l i : List Nat} (h : a :: l = i ++ [z]) : z ∈ a :: l := by rw [h]; simp

theorem not_dropLast {a z : Nat} {l i : List Nat} (h : a :: l = i ++ [z]) (hn : (a :: l).Nodup) : ∀ x ∈ (a :: l).dropLast, x ≠ z := by
  intro x hx
  rw [h] at hx hn
  rw [List.dropLast_concat] at hx
  rintro rfl
  rw [List.nodup_append] at hn
  exact hn.2.2 x hx x (by simp) rfl

theorem not_tail {a : Nat} {l : List Nat} (hn : (a :: l).Nodup) : ∀ x ∈ (a :: l).tail, x ≠ a := by
  intro x hx
  rintro rfl
  exact (List.nodup_cons.1 hn).1 hx

theorem Ring_last {nx pv : Nat → Nat} {a : Nat} {l : List Nat} (h : Circle nx pv (a :: l)) : ∃ i, a :: l = i ++ [pv a] := by
  obtain ⟨i, z, hz⟩ := exists_last a l
  have := (Circle_iff hz).1 h
  exact ⟨i, by rw [this.2.2]; exact hz⟩

theorem Ring_next {nx pv : Nat → Nat} {a b : Nat} {l : List Nat} (h : Circle nx pv (a :: b :: l)) : nx a = b := by
  simp only [Circle, List.cons_append, Links] at h
  exact h.1.1

theorem Ring_single {nx pv : Nat → Nat} {a : Nat} : Circle nx pv [a] ↔ nx a = a ∧ pv a = a := by
  simp [Circle, Links]

theorem ne_of_mem_of_not_mem' {x t : Nat} {l : List Nat} (hx : x ∈ l) (ht : t ∉ l) : x ≠ t := fun h => ht (h ▸ hx)

theorem ring_join {nx pv : Nat → Nat} {a b : Nat} {l m : List Nat} (ha : Circle nx pv (a :: l)) (hb : Circle nx pv (b :: m)) (hn : (a :: l ++ b :: m).Nodup) :
    Circle (upd (upd nx (pv b) a) (pv a) b) (upd (upd pv a (pv b)) b (pv a)) (a :: l ++ b :: m) := by
  obtain ⟨i, hi⟩ := Ring_last ha
  obtain ⟨j, hj⟩ := Ring_last hb
  obtain ⟨a1, a2, -⟩ := (Circle_iff hi).1 ha
  obtain ⟨b1, b2, -⟩ := (Circle_iff hj).1 hb
  obtain ⟨n1, n2, n3⟩ := List.nodup_append.1 hn
  have hza := last_mem hi
  have hzb := last_mem hj
  have e : a :: (l ++ b :: m) = (a :: l ++ j) ++ [pv b] := by
    rw [List.append_assoc, ← hj]; rfl
  have hba : b ≠ a := fun h => n3 a (by simp) b (by simp) h.symm
  have hz : pv b ≠ pv a := fun h => n3 _ hza _ hzb h.symm
  refine (Circle_iff e).2 ⟨?_, ?_, ?_⟩
  · have := (Links_append (nx := upd (upd nx (pv b) a) (pv a) b) (pv := upd (upd pv a (pv b)) b (pv a)) b m (a :: l)).2
    refine this ⟨?_, ?_⟩
    · rw [hi, List.append_assoc]
      rw [show ([pv a] ++ [b] : List Nat) = pv a :: [b] from rfl, Links_append]
      refine ⟨?_, ?_⟩
      · rw [← hi]
        refine Links_congr _ ?_ ?_ a1
        · intro x hx
          have hx' : x ∈ a :: l := List.dropLast_subset _ hx
          rw [upd_ne _ _ (not_dropLast hi n1 x hx), upd_ne _ _ (fun h => n3 _ hx' _ hzb h)]
        · intro y hy
          have hy' : y ∈ a :: l := List.mem_of_mem_tail hy
          rw [upd_ne _ _ (fun h => n3 _ hy' b (by simp) h), upd_ne _ _ (not_tail n1 y hy)]
      · simp only [Links, and_true]
        exact ⟨upd_self _ _ _, upd_self _ _ _⟩
    · refine Links_congr _ ?_ ?_ b1
      · intro x hx
        have hx' : x ∈ b :: m := List.dropLast_subset _ hx
        rw [upd_ne _ _ (fun h => n3 _ hza _ hx' h.symm), upd_ne _ _ (not_dropLast hj n2 x hx)]
      · intro y hy
        have hy' : y ∈ b :: m := List.mem_of_mem_tail hy
        rw [upd_ne _ _ (not_tail n2 y hy), upd_ne _ _ (fun h => n3 a (by simp) _ hy' h.symm)]
  · rw [upd_ne _ _ hz, upd_self]
  · rw [upd_ne _ _ (Ne.symm hba), upd_self]

theorem ring_remove {nx pv : Nat → Nat} {t y : Nat} {m : List Nat} (h : Circle nx pv (t :: y :: m)) (hn : (t :: y :: m).Nodup) :
    Circle (upd (upd nx (pv t) y) t t) (upd (upd pv y (pv t)) t t) (y :: m) := by
  obtain ⟨i, hi⟩ := Ring_last h
  obtain ⟨a1, a2, -⟩ := (Circle_iff hi).1 h
  obtain ⟨n1, n2⟩ := List.nodup_cons.1 hn
  obtain ⟨j, z, hj⟩ := exists_last y m
  have hzz : pv t = z := by
    have := hi
    rw [hj, ← List.cons_append] at this
    exact ((List.append_inj' this rfl).2 |> List.head_eq_of_cons_eq).symm
  rw [hzz]
  have hz := last_mem hj
  have hzt : z ≠ t := fun h => n1 (h ▸ hz)
  have hyt : y ≠ t := fun h => n1 (by simp [h])
  refine (Circle_iff hj).2 ⟨?_, ?_, ?_⟩
  · refine Links_congr _ ?_ ?_ a1.2
    · intro x hx
      have hx' : x ∈ y :: m := List.dropLast_subset _ hx
      rw [upd_ne _ _ (ne_of_mem_of_not_mem' hx' n1), upd_ne _ _ (not_dropLast hj n2 x hx)]
    · intro x hx
      have hx' : x ∈ y :: m := List.mem_of_mem_tail hx
      rw [upd_ne _ _ (ne_of_mem_of_not_mem' hx' n1), upd_ne _ _ (not_tail n2 x hx)]
  · rw [upd_ne _ _ hzt, upd_self]
  · rw [upd_ne _ _ hyt, upd_self]

theorem ring_replace {nx pv : Nat → Nat} {t n y : Nat} {m : List Nat} (h : Circle nx pv (t :: y :: m)) (hn : (t :: y :: m).Nodup) (hnew : n ∉ t :: y :: m) :
    Circle (upd (upd (upd nx n y) (pv t) n) t t) (upd (upd (upd pv n (pv t)) y n) t t) (n :: y :: m) := by
  obtain ⟨i, hi⟩ := Ring_last h
  obtain ⟨a1, a2, -⟩ := (Circle_iff hi).1 h
  obtain ⟨n1, n2⟩ := List.nodup_cons.1 hn
  obtain ⟨j, z, hj⟩ := exists_last y m
  have hzz : pv t = z := by
    have := hi
    rw [hj, ← List.cons_append] at this
    exact ((List.append_inj' this rfl).2 |> List.head_eq_of_cons_eq).symm
  rw [hzz]
  have hz := last_mem hj
  have hzt : z ≠ t := fun h => n1 (h ▸ hz)
  have hyt : y ≠ t := fun h => n1 (by simp [h])
  have hnt : n ≠ t := fun h => hnew (by simp [h])
  have hny : n ≠ y := fun h => hnew (by simp [h])
  have hnz : n ≠ z := fun h => hnew (List.mem_cons_of_mem _ (h ▸ hz))
  have hnm : n ∉ y :: m := fun h => hnew (List.mem_cons_of_mem _ h)
  have e : n :: y :: m = (n :: j) ++ [z] := by rw [hj]; rfl
  refine (Circle_iff e).2 ⟨⟨⟨?_, ?_⟩, ?_⟩, ?_, ?_⟩
  · rw [upd_ne _ _ hnt, upd_ne _ _ hnz, upd_self]
  · rw [upd_ne _ _ hyt, upd_self]
  · refine Links_congr _ ?_ ?_ a1.2
    · intro x hx
      have hx' : x ∈ y :: m := List.dropLast_subset _ hx
      rw [upd_ne _ _ (ne_of_mem_of_not_mem' hx' n1), upd_ne _ _ (not_dropLast hj n2 x hx), upd_ne _ _ (ne_of_mem_of_not_mem' hx' hnm)]
    · intro x hx
      have hx' : x ∈ y :: m := List.mem_of_mem_tail hx
      rw [upd_ne _ _ (ne_of_mem_of_not_mem' hx' n1), upd_ne _ _ (not_tail n2 x hx), upd_ne _ _ (ne_of_mem_of_not_mem' hx' hnm)]
  · rw [upd_ne _ _ hzt, upd_self]
  · rw [upd_ne _ _ hnt, upd_ne _ _ hny, upd_self]

end BX
