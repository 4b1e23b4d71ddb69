import Verif.Lemmas.Value
/-
Properties C17, C18, C48: comparing and copying binary values, temporary buffers.
-/
namespace BX
open XBT Spec

/-! ### C17 -/

theorem tells_sgn (a b : Int) : Tells (· < ·) (sgnCmp (decide (a < b)) (decide (a > b))) a b := by
  unfold sgnCmp Tells
  by_cases h1 : a < b
  · simp [h1]; omega
  · by_cases h2 : a > b
    · simp [h1, h2]; omega
    · simp [h1, h2]; omega

/-- C17 for the types stored as `int32_t`: the sign tells how the numbers compare. -/
theorem C17_int32 (f : Nat → List UInt8 → List UInt8 → Int) (t : XBT)
    (ht : t ∈ [INT32, INT32_DECI, INT32_CENTI, INT32_MILI, INT32_MICRO, INT32_NANO, UNIX_DATE])
    (a b : Int) (ha : isI32 a) (hb : isI32 b) : Tells (· < ·) (compareV f t (le32 a) 4 t (le32 b) 4) a b := by
  have ra : rdI32 (le32 a) = a := by simpa using rdI32_le32 a [] ha
  have rb : rdI32 (le32 b) = b := by simpa using rdI32_le32 b [] hb
  have := tells_sgn a b
  simp only [List.mem_cons, List.not_mem_nil, or_false] at ht
  rcases ht with rfl | rfl | rfl | rfl | rfl | rfl | rfl <;> simpa [compareV, cmpAs, ra, rb] using this

/-- C17 for the types stored as `uint32_t`. -/
theorem C17_uint32 (f : Nat → List UInt8 → List UInt8 → Int) (t : XBT) (ht : t ∈ [UINT32, UNIX_TIME])
    (a b : Nat) (ha : a < 2 ^ 32) (hb : b < 2 ^ 32) : Tells (· < ·) (compareV f t (leN 4 a) 4 t (leN 4 b) 4) a b := by
  have ra : rdU32 (leN 4 a) = a := by simpa using rdU32_leN a [] ha
  have rb : rdU32 (leN 4 b) = b := by simpa using rdU32_leN b [] hb
  have h := tells_sgn a b
  have h : Tells (· < ·) (sgnCmp (decide ((a : Int) < b)) (decide ((a : Int) > b))) a b :=
    ⟨h.1.trans (by omega), h.2.1.trans (by omega), h.2.2.trans (by omega)⟩
  simp only [List.mem_cons, List.not_mem_nil, or_false] at ht
  rcases ht with rfl | rfl <;> simpa [compareV, cmpAs, ra, rb] using h

/-- C17 for the types stored as `int64_t`. -/
theorem C17_int64 (f : Nat → List UInt8 → List UInt8 → Int) (t : XBT) (ht : t ∈ [INT64, UNIX_TIME64_MSEC])
    (a b : Int) (ha : isI64 a) (hb : isI64 b) : Tells (· < ·) (compareV f t (le64 a) 8 t (le64 b) 8) a b := by
  have ra : rdI64 (le64 a) = a := by simpa using rdI64_le64 a [] ha
  have rb : rdI64 (le64 b) = b := by simpa using rdI64_le64 b [] hb
  have := tells_sgn a b
  simp only [List.mem_cons, List.not_mem_nil, or_false] at ht
  rcases ht with rfl | rfl <;> simpa [compareV, cmpAs, ra, rb] using this

/-- C17 for `uint64_t`. -/
theorem C17_uint64 (f : Nat → List UInt8 → List UInt8 → Int)
    (a b : Nat) (ha : a < 2 ^ 64) (hb : b < 2 ^ 64) : Tells (· < ·) (compareV f UINT64 (leN 8 a) 8 UINT64 (leN 8 b) 8) a b := by
  have ra : rdU64 (leN 8 a) = a := by simpa using rdU64_leN a [] ha
  have rb : rdU64 (leN 8 b) = b := by simpa using rdU64_leN b [] hb
  have h := tells_sgn a b
  have h : Tells (· < ·) (sgnCmp (decide ((a : Int) < b)) (decide ((a : Int) > b))) a b :=
    ⟨h.1.trans (by omega), h.2.1.trans (by omega), h.2.2.trans (by omega)⟩
  simpa [compareV, cmpAs, ra, rb] using h

theorem memcmpB_tells (a b : List UInt8) (h : a.length = b.length) : Tells BytesLt (memcmpB a b) a b := by
  induction a generalizing b with
  | nil => cases b with
    | nil => simp [Tells, memcmpB, BytesLt]
    | cons => simp at h
  | cons x a ih => cases b with
    | nil => simp at h
    | cons y b =>
      have ihb := ih b (by simpa using h)
      unfold Tells at *
      simp only [memcmpB, BytesLt]
      by_cases h1 : x.toNat < y.toNat
      · have : x ≠ y := by rintro rfl; omega
        have h2 : y ≠ x := fun e => this e.symm
        simp [h1, this, h2]; omega
      · by_cases h2 : y.toNat < x.toNat
        · have : x ≠ y := by rintro rfl; omega
          have h3 : y ≠ x := fun e => this e.symm
          simp [h1, h2, this]
        · have : x = y := by apply UInt8.toNat_inj.mp; omega
          subst this
          simp; exact ihb

theorem strcmpB_tells (a b : List UInt8) (ha : ∀ x ∈ a, x ≠ 0) (hb : ∀ x ∈ b, x ≠ 0) : Tells BytesLt (strcmpB a b) a b := by
  have pos : ∀ x : UInt8, x ≠ 0 → 0 < x.toNat := by
    intro x hx
    rcases Nat.eq_zero_or_pos x.toNat with h | h
    · exact absurd (UInt8.toNat_inj.mp h) hx
    · exact h
  induction a generalizing b with
  | nil => cases b with
    | nil => simp [Tells, strcmpB, BytesLt]
    | cons y b => simp [Tells, strcmpB, BytesLt, pos y (hb y (by simp))]
  | cons x a ih => cases b with
    | nil => simp [Tells, strcmpB, BytesLt, pos x (ha x (by simp))]
    | cons y b =>
      have ihb := ih b (fun z hz => ha z (by simp [hz])) (fun z hz => hb z (by simp [hz]))
      unfold Tells at *
      simp only [strcmpB, BytesLt]
      by_cases h1 : x.toNat < y.toNat
      · have : x ≠ y := by rintro rfl; omega
        have h2 : y ≠ x := fun e => this e.symm
        simp [h1, this, h2]; omega
      · by_cases h2 : y.toNat < x.toNat
        · have : x ≠ y := by rintro rfl; omega
          have h3 : y ≠ x := fun e => this e.symm
          simp [h1, h2, this]
        · have : x = y := by apply UInt8.toNat_inj.mp; omega
          subst this
          simp; exact ihb

/-- C17 for the byte-array types: equally long blocks compare lexicographically. -/
theorem C17_bytes (f : Nat → List UInt8 → List UInt8 → Int) (t : XBT) (ht : t ∈ [HEX, GUID, SHA1, IPv4, IPv6])
    (a b : List UInt8) (h : a.length = b.length) : Tells BytesLt (compareV f t a a.length t b b.length) a b := by
  have := memcmpB_tells a b h
  simp only [List.mem_cons, List.not_mem_nil, or_false] at ht
  rcases ht with rfl | rfl | rfl | rfl | rfl <;> simpa [compareV, h, List.take_of_length_le (Nat.le_of_eq h)] using this

/-- C17 for strings (with their terminators and whatever follows in memory). -/
theorem C17_string (f : Nat → List UInt8 → List UInt8 → Int) (t : XBT) (ht : t ∈ [STRING, BLOB_STRING])
    (a b ra rb : List UInt8) (ha : ∀ x ∈ a, x ≠ 0) (hb : ∀ x ∈ b, x ≠ 0) (n m : Nat) :
    Tells BytesLt (compareV f t (a ++ 0 :: ra) n t (b ++ 0 :: rb) m) a b := by
  have := strcmpB_tells a b ha hb
  have pa : cPrefix (a ++ 0 :: ra) = a := takeWhile_stop _ _ _ _ (by simpa using ha) (by simp)
  have pb : cPrefix (b ++ 0 :: rb) = b := takeWhile_stop _ _ _ _ (by simpa using hb) (by simp)
  simp only [List.mem_cons, List.not_mem_nil, or_false] at ht
  rcases ht with rfl | rfl <;> simpa [compareV, pa, pb] using this

theorem memcmpB_swap (a b : List UInt8) : memcmpB b a = -memcmpB a b := by
  induction a generalizing b with
  | nil => cases b <;> simp [memcmpB]
  | cons x a ih => cases b with
    | nil => simp [memcmpB]
    | cons y b =>
      simp only [memcmpB]
      split <;> split <;> (try split) <;> first | omega | exact ih b | rfl | simp_all

theorem strcmpB_swap (a b : List UInt8) : strcmpB b a = -strcmpB a b := by
  induction a generalizing b with
  | nil => cases b <;> simp [strcmpB]; split <;> simp
  | cons x a ih => cases b with
    | nil => simp [strcmpB]; split <;> simp
    | cons y b =>
      simp only [strcmpB]
      split <;> split <;> (try split) <;> first | omega | exact ih b | rfl | simp_all

theorem sgn_swap (a b : Int) : sgnCmp (decide (b < a)) (decide (b > a)) = -sgnCmp (decide (a < b)) (decide (a > b)) := by
  unfold sgnCmp
  by_cases h1 : a < b
  · have : ¬ b < a := by omega
    simp [h1, this]
  · by_cases h2 : b < a <;> simp [h1, h2]

theorem cmpAs_swap (rd : List UInt8 → Int) (s : Nat) (A B : List UInt8) (m n : Nat)
    (h : cmpAs rd s A B m n ≠ INT_NULL_VALUE) : cmpAs rd s B A n m = -cmpAs rd s A B m n := by
  unfold cmpAs at *
  by_cases hs : m ≠ s ∨ n ≠ s
  · simp [hs] at h
  · have hs' : ¬(n ≠ s ∨ m ≠ s) := by omega
    rw [if_neg hs, if_neg hs']
    exact sgn_swap _ _

/-- C17: swapping the arguments flips the sign, for all types, equal or different, whenever the values are comparable at all
(i.e. the result is not `INT_NULL_VALUE`); for floating point numbers provided their comparison has this property. -/
theorem C17_swap (f : Nat → List UInt8 → List UInt8 → Int) (hf : ∀ n A B, f n B A = -f n A B)
    (ta tb : XBT) (A B : List UInt8) (m n : Nat) (h : compareV f ta A m tb B n ≠ INT_NULL_VALUE) :
    compareV f tb B n ta A m = -compareV f ta A m tb B n := by
  by_cases ht : ta = tb
  · subst ht
    unfold compareV at *
    rw [if_pos rfl] at *
    rw [if_pos rfl]
    cases ta <;> dsimp only at * <;> first
      | exact cmpAs_swap _ _ _ _ _ _ h
      | exact strcmpB_swap _ _
      | exact absurd rfl h
      | (split at h
         · exact absurd rfl h
         · rename_i hn; rw [if_neg hn, if_neg (by omega)]; exact hf _ _ _)
      | (split at h
         · rename_i hn; rw [if_pos hn, if_pos hn.symm]; exact memcmpB_swap _ _
         · exact absurd rfl h)
  · unfold compareV at *
    rw [if_neg ht] at *
    rw [if_neg (fun e => ht e.symm)]
    split at h
    · rename_i hn; rw [if_pos hn, if_pos hn.symm]; exact memcmpB_swap _ _
    · exact absurd rfl h

/-- Comparing incomparable values gives the same negative number both ways round, so it is no order: a caller that sorts
must not mix them. -/
theorem C17_incomparable (f : Nat → List UInt8 → List UInt8 → Int) :
    compareV f INT32 (le32 1) 4 INT64 (le64 2) 8 < 0 ∧ compareV f INT64 (le64 2) 8 INT32 (le32 1) 4 < 0 := by
  simp [compareV, INT_NULL_VALUE]

example : compareV (fun _ _ _ => 0) INT32 (le32 (-5)) 4 INT32 (le32 3) 4 = -1 ∧
    compareV (fun _ _ _ => 0) SHA1 [1, 2, 3] 3 SHA1 [1, 2, 200] 3 = -1 := by decide +kernel

/-! ### C18 -/

/-- Where a value of this type is put when the write pointer is `wp`: the next multiple of its alignment. -/
def copyStart (t : XBT) (wp : Nat) : Nat := if xalign t = 4 then aa wp else if xalign t = 8 then aa8 wp else wp

theorem memPut_get (m : Mem) (d : Nat) (bs : List UInt8) (i : Nat) (h : i < bs.length) : memPut m d bs (d + i) = bs[i] := by
  unfold memPut
  rw [if_pos (by omega), Nat.add_sub_cancel_left, List.getD_eq_getElem?_getD, List.getElem?_eq_getElem h]; rfl
theorem memPut_frame (m : Mem) (d : Nat) (bs : List UInt8) (a : Nat) (h : a < d ∨ d + bs.length ≤ a) : memPut m d bs a = m a := by
  unfold memPut
  rw [if_neg (by omega)]

theorem cPrefix_prefix (src : List UInt8) : cPrefix src <+: src := List.takeWhile_prefix _

theorem cPrefix_next (src : List UInt8) (h : (cPrefix src).length < src.length) : src[(cPrefix src).length] = 0 := by
  unfold cPrefix at *
  induction src with
  | nil => simp at h
  | cons a s ih =>
    by_cases ha : a ≠ 0
    · simp only [List.takeWhile_cons, ha, decide_true, ne_eq, not_false_eq_true, if_true, List.length_cons] at h ⊢
      simp only [List.getElem_cons_succ]
      exact ih (by simpa using h)
    · simp only [ne_eq, Classical.not_not] at ha
      subst ha
      simp

/-- C18. The full property (every type, size, pointer and limit) is refuted by `C18_string_overflow`, `C18_negative_size` and
`C18_pointer_moves_back`. Proved, with the exact guard — the size is one the type can have (`XBT_Size2` is not -1) and, for a
string, it is the length of the string: the value is refused exactly when `size2 + align` does not fit; otherwise the call is
defined, it writes only inside [old pointer, limit), the write pointer ends inside the limit behind the aligned value, and the value's bytes are the source's. -/
theorem C18_copy_partial (m : Mem) (src : List UInt8) (t : XBT) (size wp limit : Nat)
    (hsize : 0 ≤ size2 t size) (hsrc : size2 t size ≤ src.length) (hstr : t = STRING → (cPrefix src).length = size) :
    if (wp : Int) + size2 t size + xalign t ≤ limit then
      ∃ m', xbtCopy m src t size wp limit = .ok (m', (copyStart t wp : Int) + size2 t size) ∧
        wp ≤ copyStart t wp ∧ copyStart t wp % (max (xalign t) 1) = 0 ∧ copyStart t wp + size2 t size ≤ limit ∧
        (∀ a, a < wp ∨ limit ≤ a → m' a = m a) ∧
        (∀ i (h : i < src.length), (i : Int) < size2 t size → m' (copyStart t wp + i) = src[i])
    else xbtCopy m src t size wp limit = .fail := by
  have hal : xalign t = 0 ∨ xalign t = 4 ∨ xalign t = 8 := by cases t <;> simp [xalign]
  obtain ⟨vs, hvs⟩ : ∃ vs : Nat, size2 t size = vs := ⟨(size2 t size).toNat, by omega⟩
  split
  case isFalse h =>
    unfold xbtCopy; dsimp only; rw [if_pos (by omega)]
  case isTrue h =>
    unfold xbtCopy; dsimp only; rw [if_neg (by omega)]
    by_cases ht : t = STRING
    · subst ht
      have hs := hstr rfl
      have h2 : size2 STRING size = size + 1 := rfl
      have ha : xalign STRING = 0 := rfl
      have hcs : copyStart STRING wp = wp := rfl
      have hlt : (cPrefix src).length < src.length := by omega
      rw [if_pos rfl, if_neg (by omega)]
      refine ⟨_, rfl, Nat.le_refl _, by simp [ha, Nat.mod_one], by omega, ?_, ?_⟩
      · intro a ha'
        exact memPut_frame _ _ _ _ (by simp; omega)
      · intro i hi hi2
        rw [hcs, memPut_get _ _ _ _ (by simp; omega)]
        rcases Nat.lt_or_ge i (cPrefix src).length with hl | hl
        · rw [List.getElem_append_left hl]
          exact (cPrefix_prefix src).getElem hl
        · have : i = (cPrefix src).length := by omega
          subst this
          rw [List.getElem_append_right (by omega)]
          simp [cPrefix_next src hlt]
    · rw [if_neg ht]
      rcases hal with ha | ha | ha
      · have h0 : vs = 0 := by
          cases t <;> simp [xalign] at ha <;> simp [size2] at hvs hsize <;> first | (split at hvs <;> omega) | omega | exact absurd rfl ht
        rw [if_neg (by omega)]
        refine ⟨m, ?_, ?_, ?_, ?_, fun _ _ => rfl, ?_⟩
        · simp [copyStart, ha]
        · simp [copyStart, ha]
        · simp [ha, Nat.mod_one]
        · simp only [copyStart, ha]; simp; omega
        · intro i _ hi; omega
      · have hcs : copyStart t wp = aa wp := by simp [copyStart, ha]
        have hb : wp ≤ aa wp ∧ aa wp ≤ wp + 3 ∧ aa wp % 4 = 0 := by unfold aa; omega
        rw [if_pos (.inl ha), if_pos ha, if_neg (by omega), hcs, hvs]
        refine ⟨_, rfl, hb.1, by rw [ha]; exact hb.2.2, by omega, ?_, ?_⟩
        · intro a ha'
          exact memPut_frame _ _ _ _ (by simp; omega)
        · intro i hi hi2
          rw [memPut_get _ _ _ _ (by simp; omega)]
          simp
      · have hcs : copyStart t wp = aa8 wp := by simp [copyStart, ha]
        have hb : wp ≤ aa8 wp ∧ aa8 wp ≤ wp + 7 ∧ aa8 wp % 8 = 0 := by unfold aa8; omega
        rw [if_pos (.inr ha), if_neg (by omega), if_neg (by omega), hcs, hvs]
        refine ⟨_, rfl, hb.1, by rw [ha]; exact hb.2.2, by omega, ?_, ?_⟩
        · intro a ha'
          exact memPut_frame _ _ _ _ (by simp; omega)
        · intro i hi hi2
          rw [memPut_get _ _ _ _ (by simp; omega)]
          simp

/-- C18 refuted: a string longer than the given size is copied whole, beyond the limit. -/
theorem C18_string_overflow : ∃ (src : List UInt8) (size wp limit a : Nat) (m m' : Mem) (wp' : Int),
    xbtCopy m src STRING size wp limit = .ok (m', wp') ∧ limit ≤ a ∧ m' a ≠ m a := by
  refine ⟨[97, 98, 99, 100, 101, 102, 0], 2, 0, 3, 4, fun _ => 0, memPut (fun _ => 0) 0 [97, 98, 99, 100, 101, 102, 0], 3, ?_, by omega, ?_⟩
  · rfl
  · decide

/-- C18 refuted: a size the type cannot have is turned into a `memcpy` of a negative size. -/
theorem C18_negative_size (m : Mem) (src : List UInt8) : xbtCopy m src GUID 5 0 100 = .ub := by
  simp [xbtCopy, size2, xalign]

/-- C18 refuted: for a VARIANT the call succeeds and moves the write pointer backwards. -/
theorem C18_pointer_moves_back (m : Mem) (src : List UInt8) : xbtCopy m src VARIANT 4 10 100 = .ok (m, 9) := by
  simp [xbtCopy, size2, xalign]

example : ∃ m', xbtCopy (fun _ => 0) [1, 2, 3, 4, 5, 6, 7, 8] INT64 8 3 20 = .ok (m', 16) ∧ m' 8 = 1 ∧ m' 15 = 8 ∧ m' 7 = 0 := by
  refine ⟨_, rfl, ?_, ?_, ?_⟩ <;> decide

/-! ### C48 -/

/-- what holds between calls: the recorded size is the size of the block the pointer names, which is not released -/
def OutBuf.Inv (st : OutBuf) : Prop :=
  (match st.buffer with
   | none => st.size = 0
   | some b => ∃ n : Nat, st.blocks[b]? = some n ∧ st.size = n ∧ b ∉ st.freed) ∧
  ∀ b ∈ st.freed, b < st.blocks.length

theorem OutBuf.inv_free (st : OutBuf) (h : st.Inv) : st.free.Inv ∧ st.free.buffer = none ∧ st.free.blocks = st.blocks := by
  unfold OutBuf.free
  cases hb : st.buffer with
  | none => exact ⟨h, hb, rfl⟩
  | some b =>
    unfold OutBuf.Inv at *
    rw [hb] at h
    obtain ⟨⟨n, h1, h2, h3⟩, h4⟩ := h
    refine ⟨⟨rfl, ?_⟩, rfl, rfl⟩
    intro x hx
    rcases List.mem_cons.mp hx with rfl | hx
    · exact (List.getElem?_eq_some_iff.mp h1).1
    · exact h4 x hx

/-- a call of `XBT_Buffer` in a state reached by any history of calls -/
theorem OutBuf.get_spec (st : OutBuf) (h : st.Inv) (size : Int) (hs : size ≤ INT_MAX - 8192) :
    ∃ p st', st.get size = .ok (p, st') ∧ st'.Inv ∧
      (0 < size → ∃ b n : Nat, p = some b ∧ st'.blocks[b]? = some n ∧ size ≤ n ∧ b ∉ st'.freed) ∧
      (p = st.buffer ∧ 0 < size → ∃ b n : Nat, p = some b ∧ st.blocks[b]? = some n ∧ size ≤ n) := by
  unfold OutBuf.get
  by_cases hle : size ≤ st.size
  · rw [if_pos hle]
    have key : 0 < size → ∃ b n : Nat, st.buffer = some b ∧ st.blocks[b]? = some n ∧ size ≤ n ∧ b ∉ st.freed := by
      intro h0
      unfold OutBuf.Inv at h
      cases hb : st.buffer with
      | none => rw [hb] at h; have := h.1; simp only at this; omega
      | some b =>
        rw [hb] at h
        obtain ⟨⟨n, h1, h2, h3⟩, -⟩ := h
        exact ⟨b, n, rfl, h1, by omega, h3⟩
    refine ⟨_, _, rfl, h, key, ?_⟩
    rintro ⟨-, h0⟩
    obtain ⟨b, n, h1, h2, h3, -⟩ := key h0
    exact ⟨b, n, h1, h2, h3⟩
  · rw [if_neg hle]
    obtain ⟨hi, hb, hbl⟩ := OutBuf.inv_free st h
    unfold INT_MAX at *
    dsimp only
    rw [if_pos (by omega)]
    have hfr : st.free.blocks.length ∉ st.free.freed := fun hm => by
      have := hi.2 _ hm; omega
    have hpos : (0 : Int) ≤ size / 4096 * 4096 + 8192 := by
      have : (0 : Int) ≤ st.size := by
        unfold OutBuf.Inv at h
        cases hb : st.buffer with
        | none => rw [hb] at h; have := h.1; simp only at this; omega
        | some b => rw [hb] at h; obtain ⟨⟨n, -, h2, -⟩, -⟩ := h; omega
      omega
    refine ⟨_, _, rfl, ⟨⟨(size / 4096 * 4096 + 8192).toNat, by simp, by simp; omega, hfr⟩, ?_⟩, ?_, ?_⟩
    · intro b hb'
      have := hi.2 b hb'
      simp; omega
    · intro _
      exact ⟨_, (size / 4096 * 4096 + 8192).toNat, rfl, by simp, by omega, hfr⟩
    · rintro ⟨he, h0⟩
      exfalso
      unfold OutBuf.Inv at h
      rw [← he, hbl] at h
      obtain ⟨⟨n, h1, -⟩, -⟩ := h
      have := (List.getElem?_eq_some_iff.mp h1).1
      omega

/-- C48: after any history of `XBT_Buffer` and `XBT_Free` calls (requests up to `INT_MAX - 8192`, beyond which the size
computation overflows, see `C48_overflow`) every further request gets a block that is not released and at least as large as
requested; the previous block is returned again only if it is large enough. -/
theorem C48_big_enough (ops : List BufOp) (hops : ∀ op ∈ ops, ∀ n, op = .get n → n ≤ INT_MAX - 8192)
    (size : Int) (h0 : 0 < size) (hs : size ≤ INT_MAX - 8192) :
    ∃ st, OutBuf.run {} ops = .ok st ∧
      ∃ b n st', st.get size = .ok (some b, st') ∧ st'.blocks[b]? = some n ∧ size ≤ (n : Int) ∧ b ∉ st'.freed ∧
        (st.buffer = some b → ∃ k : Nat, st.blocks[b]? = some k ∧ size ≤ k) := by
  have key : ∀ (ops : List BufOp) (st : OutBuf), st.Inv → (∀ op ∈ ops, ∀ n, op = .get n → n ≤ INT_MAX - 8192) →
      ∃ st', OutBuf.run st ops = .ok st' ∧ st'.Inv := by
    intro ops
    induction ops with
    | nil => intro st h _; exact ⟨st, rfl, h⟩
    | cons op ops ih =>
      intro st h hops
      have : ∃ st1, st.step op = .ok st1 ∧ st1.Inv := by
        cases op with
        | free => exact ⟨_, rfl, (OutBuf.inv_free st h).1⟩
        | get n =>
          obtain ⟨p, st', h1, h2, -, -⟩ := OutBuf.get_spec st h n (hops _ (by simp) n rfl)
          exact ⟨st', by simp [OutBuf.step, h1], h2⟩
      obtain ⟨st1, h1, h2⟩ := this
      rw [OutBuf.run, h1]
      exact ih st1 h2 (fun op ho => hops op (by simp [ho]))
  obtain ⟨st, h1, h2⟩ := key ops {} ⟨rfl, by simp⟩ hops
  obtain ⟨p, st', g1, g2, g3, g4⟩ := OutBuf.get_spec st h2 size hs
  obtain ⟨b, n, rfl, hb, hn, hf⟩ := g3 h0
  refine ⟨st, h1, b, n, st', g1, hb, hn, hf, ?_⟩
  intro he
  obtain ⟨b', k, hk, hk2, hk3⟩ := g4 ⟨he.symm, h0⟩
  cases hk
  exact ⟨k, hk2, hk3⟩

/-- the limit of C48: a request above `INT_MAX - 4096` overflows -/
theorem C48_overflow : OutBuf.get {} 2147483647 = .ub := by simp [OutBuf.get, OutBuf.free, INT_MAX]

example : ∃ st, OutBuf.run {} [.get 100, .get 9000, .free, .get 5] = .ok st ∧
    st.blocks = [8192, 16384, 8192] ∧ st.buffer = some 2 := ⟨_, rfl, by decide, rfl⟩

end BX
