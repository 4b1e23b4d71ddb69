import Verif.Lemmas.Types
/-
Property theorems C01, C02 (type inference and joining) and C15 (string capacity).
-/
namespace BX
open XBT Spec

/-! ### C02: joining two types is the least upper bound of the generalisation order -/

/-- C02. For all value types, `XBT_JoinTypes` returns their least upper bound in the generalisation order. -/
theorem C02_join_is_lub (a b : XBT) (ha : ValueType a) (hb : ValueType b) : IsLub a b (joinTypes a b) := by
  have h := join_lub_all a (mem_all a) b (mem_all b) ha hb
  exact ⟨h.1, h.2.1, h.2.2.1, fun u hu h1 h2 => h.2.2.2 u (mem_all u) hu h1 h2⟩

/-- C02. The order is a partial order, so the least upper bound is unique. -/
theorem C02_order (a b c : XBT) :
    Below a a ∧ (Below a b → Below b a → a = b) ∧ (Below a b → Below b c → Below a c) :=
  ⟨below_refl a, below_antisymm_all a (mem_all a) b (mem_all b),
   below_trans_all a (mem_all a) b (mem_all b) c (mem_all c)⟩

/-- C02. Joining is idempotent, commutative (on value types) and associative. -/
theorem C02_join_algebra (a b c : XBT) :
    joinTypes a a = a ∧
    (ValueType a → ValueType b → joinTypes a b = joinTypes b a) ∧
    joinTypes (joinTypes a b) c = joinTypes a (joinTypes b c) :=
  ⟨by cases a <;> decide, fun ha hb => join_comm ha hb, join_assoc a b c⟩

/-- The commutativity guard of C02 is needed: the two marker codes swallow each other. -/
theorem C02_markers_not_commutative : joinTypes UNKNOWN LAST ≠ joinTypes LAST UNKNOWN := by decide

example : ValueType INT64 ∧ ValueType FLOAT ∧ joinTypes INT64 FLOAT = DOUBLE := by decide

/-! ### C01: type inference and the order of values -/

theorem detect_valueType (v : CStr) : ValueType (detect v) ∧ detect v ≠ VARIANT ∧ detect v ≠ BLOB_STRING := by
  have := detect_mem v
  revert this
  generalize detect v = t
  revert t
  exact forall_of_all (by decide)

/-- the order-independent reference: join of all detected types -/
def joinAll (values : List CStr) : XBT := values.foldr (fun v t => joinTypes (detect v) t) NULL

theorem joinAll_perm {xs ys : List CStr} (h : xs.Perm ys) : joinAll xs = joinAll ys := by
  unfold joinAll
  induction h with
  | nil => rfl
  | cons x _ ih => simp [ih]
  | swap x y l =>
    simp only [List.foldr_cons]
    rw [← join_assoc, ← join_assoc, join_comm (detect_valueType y).1 (detect_valueType x).1]
  | trans _ _ h1 h2 => rw [h1, h2]

theorem join_null_right (a : XBT) (h : ValueType a) : joinTypes a NULL = a := by
  revert h; revert a; exact forall_of_all (by decide)
theorem join_value (a b : XBT) (ha : ValueType a) (hb : ValueType b) : ValueType (joinTypes a b) :=
  (C02_join_is_lub a b ha hb).1

theorem join_variant_absorbs (a : XBT) (h1 : a ≠ STRING) (h2 : a ≠ BLOB_STRING) (ha : ValueType a) :
    joinTypes a VARIANT = VARIANT := by
  revert h1 h2 ha; revert a; exact forall_of_all (by decide)

/-- what the fold computes when no value is detected as plain text -/
theorem foldl_eq_joinAll (vs : List CStr) (h : ∀ v ∈ vs, detect v ≠ STRING) (t : XBT) (ht : ValueType t)
    : vs.foldl (fun t w => detect2 w t) t = joinTypes (joinAll vs) t := by
  induction vs generalizing t with
  | nil =>
    simp only [List.foldl_nil, joinAll, List.foldr_nil]
    revert ht; revert t; exact forall_of_all (by decide)
  | cons v vs ih =>
    have hv := detect_valueType v
    have hs : detect v ≠ STRING := h v (by simp)
    have hjt : ValueType (joinAll vs) := by
      clear ih h
      induction vs with
      | nil => exact (by decide : ValueType NULL)
      | cons w ws ih2 => exact join_value _ _ (detect_valueType w).1 ih2
    simp only [List.foldl_cons]
    have hstep : detect2 v t = joinTypes (detect v) t := by
      unfold detect2
      split
      · rename_i hvar; subst hvar
        rw [join_variant_absorbs _ hs hv.2.2 hv.1]
      · rfl
    rw [hstep, ih (fun w hw => h w (by simp [hw])) _ (join_value _ _ hv.1 ht)]
    show joinTypes (joinAll vs) (joinTypes (detect v) t) = joinTypes (joinTypes (detect v) (joinAll vs)) t
    rw [← join_assoc, join_comm hjt hv.1]

/-- C01 (full statement, false): inferred types are independent of the order of values. Refuted by three values. -/
theorem C01_order_dependent :
    ∃ vs ws : List CStr, vs.Perm ws ∧ inferType vs ≠ inferType ws ∧
      (∃ v ∈ vs, detect v = STRING) ∧ inferType vs ≠ STRING := by
  refine ⟨["5.5.5.5".toList, "12".toList, "hello".toList], ["hello".toList, "5.5.5.5".toList, "12".toList], ?_, ?_, ?_⟩
  · exact (List.perm_append_comm (l₁ := ["hello".toList]) (l₂ := ["5.5.5.5".toList, "12".toList])).symm
  · decide +kernel
  · exact ⟨⟨"hello".toList, by simp, by decide +kernel⟩, by decide +kernel⟩

/-- C01, guarded: if none of the values is detected as plain text, the inferred type does not depend on the order.
Missing with respect to the full statement: sequences containing plain text after two incompatible types. -/
theorem C01_order_independent_partial (vs ws : List CStr) (hp : vs.Perm ws)
    (h : ∀ v ∈ vs, detect v ≠ STRING) : inferType vs = inferType ws := by
  have key : ∀ us : List CStr, (∀ v ∈ us, detect v ≠ STRING) → inferType us = joinAll us := by
    intro us hus
    cases us with
    | nil => rfl
    | cons u us =>
      show us.foldl (fun t w => detect2 w t) (detect u) = _
      rw [foldl_eq_joinAll us (fun w hw => hus w (by simp [hw])) _ (detect_valueType u).1]
      have hjt : ValueType (joinAll us) := by
        clear hus
        induction us with
        | nil => exact (by decide : ValueType NULL)
        | cons w ws ih2 => exact join_value _ _ (detect_valueType w).1 ih2
      exact join_comm hjt (detect_valueType u).1
  rw [key vs h, key ws (fun v hv => h v (hp.mem_iff.mpr hv)), joinAll_perm hp]

/-- C01: whatever the order, the inferred type is either the least upper bound of all detected types or VARIANT. -/
theorem C01_join_or_variant_partial (vs : List CStr) : inferType vs = joinAll vs ∨ inferType vs = VARIANT := by
  have key : ∀ (us : List CStr) (t : XBT), ValueType t →
      (us.foldl (fun t w => detect2 w t) t = joinTypes (joinAll us) t ∨
       us.foldl (fun t w => detect2 w t) t = VARIANT) := by
    intro us
    induction us with
    | nil => intro t ht; left; revert ht; revert t; exact forall_of_all (by decide)
    | cons u us ih =>
      intro t ht
      have hu := (detect_valueType u).1
      have hjt : ValueType (joinAll us) := by
        clear ih
        induction us with
        | nil => exact (by decide : ValueType NULL)
        | cons w ws ih2 => exact join_value _ _ (detect_valueType w).1 ih2
      by_cases hv : t = VARIANT
      · right
        subst hv
        have : ∀ l : List CStr, l.foldl (fun t w => detect2 w t) VARIANT = VARIANT := by
          intro l; induction l with
          | nil => rfl
          | cons a l ih => exact ih
        exact this _
      · have hd : detect2 u t = joinTypes (detect u) t := by simp [detect2, hv]
        simp only [List.foldl_cons, hd]
        rcases ih (joinTypes (detect u) t) (join_value _ _ hu ht) with h | h
        · left
          rw [h]
          show _ = joinTypes (joinTypes (detect u) (joinAll us)) t
          rw [← join_assoc, join_comm hjt hu]
        · right; exact h
  cases vs with
  | nil => left; rfl
  | cons v vs =>
    have hjt : ValueType (joinAll vs) := by
      clear key
      induction vs with
      | nil => exact (by decide : ValueType NULL)
      | cons w ws ih2 => exact join_value _ _ (detect_valueType w).1 ih2
    rcases key vs (detect v) (detect_valueType v).1 with h | h
    · left; exact h.trans (join_comm hjt (detect_valueType v).1)
    · right; exact h

/-- C01: once the type of a symbol is plain text it stays plain text, whatever follows. -/
theorem C01_string_sticks_partial (pre post : List CStr) (h : inferType pre = STRING) (hne : pre ≠ []) :
    inferType (pre ++ post) = STRING := by
  cases pre with
  | nil => exact absurd rfl hne
  | cons v pre =>
    show (pre ++ post).foldl (fun t w => detect2 w t) (detect v) = STRING
    rw [List.foldl_append]
    have h' : pre.foldl (fun t w => detect2 w t) (detect v) = STRING := h
    rw [h']
    induction post with
    | nil => rfl
    | cons w ws ih =>
      simp only [List.foldl_cons]
      have : detect2 w STRING = STRING := by
        have := detect_valueType w
        unfold detect2
        revert this
        generalize detect w = t
        revert t
        exact forall_of_all (by decide)
      rw [this]; exact ih

/-- Non-vacuity: four values of three kinds, in two orders. -/
example : inferType ["1".toList, "2.5".toList, "".toList, "-3".toList] = INT32_DECI ∧
    inferType ["2.5".toList, "".toList, "-3".toList, "1".toList] = INT32_DECI := by decide +kernel
example : inferType ["hello".toList] = STRING := by decide +kernel

/-! ### C15: capacity reserved for updatable strings -/

theorem doubleUp_spec (len : Nat) : ∀ (fuel size s : Nat), doubleUp len fuel size = .ok s →
    len ≤ s ∧ size ≤ s ∧ (s = size ∨ s < 2 * len) ∧ ∃ k, s = size * 2 ^ k := by
  intro fuel
  induction fuel with
  | zero => intro size s h; simp [doubleUp] at h
  | succ fuel ih =>
    intro size s h
    unfold doubleUp at h
    split at h
    · split at h
      · have := ih _ _ h
        obtain ⟨h1, h2, h3, k, hk⟩ := this
        refine ⟨h1, by omega, ?_, k + 1, by rw [hk, Nat.pow_succ]; ac_rfl⟩
        rcases h3 with h3 | h3 <;> omega
      · cases h
    · cases h
      exact ⟨by omega, Nat.le_refl _, .inl rfl, 0, by simp⟩

theorem doubleUp_ok (len : Nat) (hlen : len ≤ 2 ^ 30) : ∀ (fuel k : Nat), k ≤ 26 → 27 ≤ fuel + k →
    (k = 0 ∨ 16 * 2 ^ (k-1) < len) → ∃ s, doubleUp len fuel (16 * 2 ^ k) = .ok s := by
  intro fuel
  induction fuel with
  | zero => intro k hk hf; omega
  | succ fuel ih =>
    intro k hk hf hprev
    unfold doubleUp
    split
    · rename_i hlt
      have hpow : 16 * 2 ^ k * 2 = 16 * 2 ^ (k+1) := by rw [Nat.pow_succ]; omega
      have hk2 : k ≤ 25 := by
        rcases Nat.lt_or_ge k 26 with h | h
        · omega
        · have : k = 26 := by omega
          subst this; simp at hlt; omega
      have : 16 * 2 ^ (k+1) ≤ 2 ^ 30 := by
        have : 2 ^ (k+1) ≤ 2 ^ 26 := Nat.pow_le_pow_right (by omega) (by omega)
        omega
      rw [hpow]
      rw [if_pos (by omega)]
      exact ih (k+1) (by omega) (by omega) (.inr (by simpa using hlt))
    · exact ⟨_, rfl⟩

/-- C15. For every length up to 2^30-1 the reservation is defined, holds the text and its terminator, is at least 16,
wastes less than the needed size above that minimum, and is 16·2^k or 12·2^k. -/
theorem C15_capacity (n : Nat) (hn : n + 1 ≤ 2 ^ 30) :
    ∃ s, blobStringSizeC n = .ok s ∧ n + 1 ≤ s ∧ 16 ≤ s ∧ (16 < n + 1 → s < 2 * (n + 1)) ∧
      ∃ k, s = 16 * 2 ^ k ∨ (0 < k ∧ s = 12 * 2 ^ k) := by
  unfold blobStringSizeC
  dsimp only
  rw [if_neg (by omega)]
  split
  · exact ⟨16, rfl, by omega, by omega, by omega, 0, .inl rfl⟩
  · rename_i hgt
    obtain ⟨s, hs⟩ := doubleUp_ok (n+1) hn 64 0 (by omega) (by omega) (.inl rfl)
    simp only [Nat.pow_zero, Nat.mul_one] at hs
    have h := doubleUp_spec _ _ _ _ hs
    obtain ⟨h1, h2, h3, k, hk⟩ := h
    rw [hs]
    simp only [Out.bind_ok]
    have hk0 : 0 < k := by
      rcases Nat.eq_zero_or_pos k with rfl | h
      · simp at hk; omega
      · exact h
    have hdiv : s - s / 4 = 12 * 2 ^ k := by
      rw [hk]; omega
    split
    · exact ⟨_, rfl, by omega, by have := Nat.two_pow_pos k; have : 2 ≤ 2 ^ k := Nat.le_self_pow (by omega) 2; omega, by omega, k, .inr ⟨hk0, hdiv⟩⟩
    · exact ⟨_, rfl, by omega, by omega, by omega, k, .inl hk⟩

theorem pow_cases (j k : Nat) : k ≤ j ∧ 2 ^ k ≤ 2 ^ j ∧ (2 ^ k = 2 ^ j ∨ 2 * 2 ^ k ≤ 2 ^ j) ∨ j < k ∧ 2 * 2 ^ j ≤ 2 ^ k := by
  rcases Nat.lt_or_ge j k with h | h
  · right
    refine ⟨h, ?_⟩
    have : 2 ^ (j+1) ≤ 2 ^ k := Nat.pow_le_pow_right (by omega) h
    rw [Nat.pow_succ] at this; omega
  · left
    refine ⟨h, Nat.pow_le_pow_right (by omega) h, ?_⟩
    rcases Nat.lt_or_ge k j with h' | h'
    · right
      have : 2 ^ (k+1) ≤ 2 ^ j := Nat.pow_le_pow_right (by omega) h'
      rw [Nat.pow_succ] at this; omega
    · left; rw [show k = j by omega]

/-- C15. The reservation is the least of the sizes 16, 24, 32, 48, 64, 96, … that holds the text and its terminator. -/
theorem C15_least (n s : Nat) (h : blobStringSizeC n = .ok s) (r : Nat) (hr : n + 1 ≤ r)
    (hk : ∃ j, r = 16 * 2 ^ j ∨ (0 < j ∧ r = 12 * 2 ^ j)) : s ≤ r := by
  obtain ⟨j, hj⟩ := hk
  unfold blobStringSizeC at h
  dsimp only at h
  split at h
  · cases h
  split at h
  · cases h
    have h1 : 0 < 2 ^ j := Nat.two_pow_pos j
    rcases hj with hj | ⟨h0, hj⟩
    · omega
    · have : 2 ≤ 2 ^ j := Nat.le_self_pow (by omega) 2
      omega
  · rename_i hgt
    cases hd : doubleUp (n+1) 64 16 with
    | fail => rw [hd] at h; simp at h
    | ub => rw [hd] at h; simp at h
    | ok S =>
      rw [hd] at h
      simp only [Out.bind_ok] at h
      obtain ⟨h1, h2, h3, k, hk⟩ := doubleUp_spec _ _ _ _ hd
      have hdiv : S - S / 4 = 12 * 2 ^ k := by rw [hk]; omega
      rcases h3 with h3 | h3
      · omega
      · rw [hdiv] at h
        rcases pow_cases j k with hc | hc <;> rcases hj with hj | ⟨h0, hj⟩ <;> split at h <;> cases h <;> omega

/-- C15. The reservation is monotone in the length. -/
theorem C15_monotone (n m s t : Nat) (hnm : n ≤ m) (hs : blobStringSizeC n = .ok s) (hm : m + 1 ≤ 2 ^ 30)
    (ht : blobStringSizeC m = .ok t) : s ≤ t := by
  obtain ⟨t', ht', h1, _, _, h4⟩ := C15_capacity m hm
  rw [ht] at ht'
  cases ht'
  exact C15_least n s hs t (by omega) h4

example : blobStringSizeC 16 = .ok 24 ∧ blobStringSizeC 24 = .ok 32 ∧ blobStringSizeC 1000 = .ok 1024 := by decide +kernel

/-- Above that length the reservation computation overflows `int` (undefined behaviour). -/
theorem C15_overflow : blobStringSizeC (2 ^ 30) = .ub := by decide +kernel

end BX
