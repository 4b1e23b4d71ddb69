import Verif.Model.Sha1
import Verif.Spec.Sha1
/-
Property C23: the digest is FIPS 180-4 SHA-1, however the message is cut into pieces.
-/
namespace BX
open Spec

/-- the five words as a tuple -/
def Regs.tup (r : Regs) : UInt32 × UInt32 × UInt32 × UInt32 × UInt32 := (r.A, r.B, r.C, r.D, r.E)

theorem rol_eq (x : UInt32) (n : Nat) (hn : 0 < n) (h : n < 32) : rol x (UInt32.ofNat n) = rotl n x := by
  apply UInt32.toBitVec_inj.mp
  have h1 : (UInt32.ofNat n).toBitVec = BitVec.ofNat 32 n := rfl
  have h2 : ((32 : UInt32) - UInt32.ofNat n).toBitVec = BitVec.ofNat 32 (32 - n) := by
    apply BitVec.eq_of_toNat_eq
    simp [UInt32.toBitVec_sub]
    omega
  simp only [rol, rotl, UInt32.toBitVec_or, UInt32.toBitVec_shiftLeft, UInt32.toBitVec_shiftRight, h1, h2]
  rw [BitVec.rotateLeft_def, Nat.mod_eq_of_lt h]
  have e1 : (BitVec.ofNat 32 n % 32#32) = BitVec.ofNat 32 n := by
    apply BitVec.eq_of_toNat_eq; simp; omega
  have e2 : (BitVec.ofNat 32 (32 - n) % 32#32) = BitVec.ofNat 32 (32 - n) := by
    apply BitVec.eq_of_toNat_eq; simp; omega
  simp [BitVec.shiftLeft_eq', BitVec.ushiftRight_eq', e1, e2, Nat.mod_eq_of_lt (show n < 4294967296 by omega),
    Nat.mod_eq_of_lt (show 32 - n < 4294967296 by omega)]

theorem ror2_eq (x : UInt32) : ror x 2 = rotl 30 x := by
  rw [← rol_eq x 30 (by decide) (by decide)]; rfl

theorem ch_eq (B C D : UInt32) : ((C ^^^ D) &&& B) ^^^ D = (B &&& C) ^^^ (~~~B &&& D) := by
  apply UInt32.toBitVec_inj.mp
  simp only [UInt32.toBitVec_xor, UInt32.toBitVec_and, UInt32.toBitVec_not]
  ext i hi
  simp only [BitVec.getElem_xor, BitVec.getElem_and, BitVec.getElem_not]
  cases B.toBitVec[i] <;> cases C.toBitVec[i] <;> cases D.toBitVec[i] <;> rfl

theorem maj_eq (B C D : UInt32) : (B &&& C) + (D &&& (B ^^^ C)) = (B &&& C) ^^^ (B &&& D) ^^^ (C &&& D) := by
  apply UInt32.toBitVec_inj.mp
  simp only [UInt32.toBitVec_xor, UInt32.toBitVec_and, UInt32.toBitVec_add]
  rw [BitVec.add_eq_or_of_and_eq_zero]
  · ext i hi
    simp only [BitVec.getElem_xor, BitVec.getElem_and, BitVec.getElem_or]
    cases B.toBitVec[i] <;> cases C.toBitVec[i] <;> cases D.toBitVec[i] <;> rfl
  · ext i hi
    simp only [BitVec.getElem_xor, BitVec.getElem_and, BitVec.getElem_zero]
    cases B.toBitVec[i] <;> cases C.toBitVec[i] <;> cases D.toBitVec[i] <;> rfl

theorem shaFn_eq (t : Nat) (B C D : UInt32) : shaFn t B C D = f t B C D := by
  simp only [shaFn, f, ch_eq, maj_eq, Nat.lt_succ_iff (n := 19), Nat.lt_succ_iff (n := 39), Nat.lt_succ_iff (n := 59)]

theorem shaK_eq (t : Nat) : shaK t = K t := by
  simp only [shaK, K, Nat.lt_succ_iff (n := 19), Nat.lt_succ_iff (n := 39), Nat.lt_succ_iff (n := 59)]

theorem beWord_eq (block : List UInt8) (t : Nat) : beWord block t = M block t := by
  unfold beWord M
  rw [Nat.mul_comm t 4]

/-- the ring of 16 words holds the last 16 words of the schedule -/
def Ring (block : List UInt8) (t : Nat) (array : List UInt32) : Prop :=
  array.length = 16 ∧ ∀ s, s < t → t ≤ s + 16 → wGet array s = W block s

theorem W_ge (block : List UInt8) (t : Nat) (h : 16 ≤ t) :
    W block t = rotl 1 (W block (t - 3) ^^^ W block (t - 8) ^^^ W block (t - 14) ^^^ W block (t - 16)) := by
  rw [W, dif_neg (by omega)]

theorem W_lt (block : List UInt8) (t : Nat) (h : t < 16) : W block t = M block t := by
  rw [W, dif_pos h]

theorem wGet_mod (array : List UInt32) {x y : Nat} (h : x % 16 = y % 16) : wGet array x = wGet array y := by
  unfold wGet; rw [h]

theorem ring_temp (block : List UInt8) (t : Nat) (array : List UInt32) (h : Ring block t array) :
    (if t < 16 then beWord block t else shaMix array t) = W block t := by
  by_cases ht : t < 16
  · rw [if_pos ht, beWord_eq, W_lt block t ht]
  · rw [if_neg ht, W_ge block t (by omega), ← rol_eq _ 1 (by decide) (by decide), shaMix]
    rw [wGet_mod array (x := t + 13) (y := t - 3) (by omega), wGet_mod array (x := t + 8) (y := t - 8) (by omega),
      wGet_mod array (x := t + 2) (y := t - 14) (by omega), wGet_mod array (x := t) (y := t - 16) (by omega)]
    rw [h.2 (t - 3) (by omega) (by omega), h.2 (t - 8) (by omega) (by omega), h.2 (t - 14) (by omega) (by omega),
      h.2 (t - 16) (by omega) (by omega)]
    rfl

theorem ring_set (block : List UInt8) (t : Nat) (array : List UInt32) (h : Ring block t array) :
    Ring block (t + 1) (array.set (t % 16) (W block t)) := by
  refine ⟨by simp [h.1], ?_⟩
  intro s h1 h2
  unfold wGet
  by_cases hs : s = t
  · subst hs
    rw [List.getD_eq_getElem?_getD, List.getElem?_set_self (by rw [h.1]; omega)]
    rfl
  · rw [List.getD_eq_getElem?_getD, List.getElem?_set_ne (by omega), ← List.getD_eq_getElem?_getD]
    exact h.2 s (by omega) (by omega)

theorem view_next (v : Regs) (t : Nat) : (v.unview t).view (t + 1) = ⟨v.E, v.A, v.B, v.C, v.D⟩ := by
  have h : t % 5 < 5 := Nat.mod_lt _ (by decide)
  have h2 : (t + 1) % 5 = (t % 5 + 1) % 5 := by omega
  unfold Regs.unview Regs.view
  rw [h2]
  generalize t % 5 = k at h
  match k, h with
  | 0, _ => rfl
  | 1, _ => rfl
  | 2, _ => rfl
  | 3, _ => rfl
  | 4, _ => rfl

theorem shaRound_spec (h0 : UInt32 × UInt32 × UInt32 × UInt32 × UInt32) (block : List UInt8) (t : Nat) (r : Regs) (array : List UInt32)
    (hr : Ring block t array) (hv : (r.view t).tup = vars h0 block t) :
    Ring block (t + 1) (shaRound block t (r, array)).2 ∧ ((shaRound block t (r, array)).1.view (t + 1)).tup = vars h0 block (t + 1) := by
  unfold shaRound
  simp only [ring_temp block t array hr]
  refine ⟨ring_set block t array hr, ?_⟩
  rw [view_next, vars, ← hv]
  simp only [Regs.tup, ror2_eq, shaFn_eq, shaK_eq, ← rol_eq _ 5 (by decide) (by decide)]
  have : ∀ e w a f k : UInt32, e + (w + a + f + k) = a + f + e + k + w := by
    intro e w a f k
    apply UInt32.toBitVec_inj.mp
    simp only [UInt32.toBitVec_add]
    ac_rfl
  rw [this]
  rfl

theorem shaRounds_spec (h0 : UInt32 × UInt32 × UInt32 × UInt32 × UInt32) (block : List UInt8) (n t : Nat) (s : Regs × List UInt32)
    (hr : Ring block t s.2) (hv : (s.1.view t).tup = vars h0 block t) :
    ((shaRounds block n t s).1.view (t + n)).tup = vars h0 block (t + n) := by
  induction n generalizing t s with
  | zero => exact hv
  | succ n ih =>
    rw [shaRounds]
    obtain ⟨h1, h2⟩ := shaRound_spec h0 block t s.1 s.2 hr hv
    have := ih (t + 1) _ h1 h2
    rwa [show t + 1 + n = t + (n + 1) by omega] at this

theorem shaBlock_eq (h : Regs) (block : List UInt8) : (shaBlock h block).tup = step h.tup block := by
  have h0 : Ring block 0 (List.replicate 16 0) := ⟨by simp, by intro s hs; omega⟩
  have := shaRounds_spec h.tup block 80 0 (h, List.replicate 16 0) h0 rfl
  rw [show 0 + 80 = 80 by rfl] at this
  unfold shaBlock step
  generalize shaRounds block 80 0 (h, List.replicate 16 0) = s at this
  rw [← this]
  have hv : s.1.view 80 = s.1 := rfl
  rw [hv]
  simp only [Regs.tup, UInt32.add_comm]

/-! ### streaming -/

/-- the state after the complete blocks of a message -/
def hashOf (m : List UInt8) : UInt32 × UInt32 × UInt32 × UInt32 × UInt32 :=
  (blocks m).foldl step (0x67452301, 0xefcdab89, 0x98badcfe, 0x10325476, 0xc3d2e1f0)

/-- the incomplete last block -/
def partialBlock (m : List UInt8) : List UInt8 := m.drop (m.length / 64 * 64)

theorem blocks_append (a b : List UInt8) (h : a.length % 64 = 0) : blocks (a ++ b) = blocks a ++ blocks b := by
  generalize hn : a.length = n at h
  induction n using Nat.strongRecOn generalizing a with
  | ind n ih =>
    by_cases h0 : n = 0
    · have : a = [] := List.length_eq_zero_iff.mp (by omega)
      subst this
      rw [blocks.eq_def []]; simp
    · rw [blocks.eq_def (a ++ b), blocks.eq_def a, dif_neg (by simp; omega), dif_neg (by omega)]
      rw [List.take_append_of_le_length (by omega), List.drop_append_of_le_length (by omega),
        ih (n - 64) (by omega) (a.drop 64) (by simp; omega) (by omega)]
      rfl

theorem blocks_short (a : List UInt8) (h : a.length < 64) : blocks a = [] := by rw [blocks, dif_pos h]
theorem blocks_one (a : List UInt8) (h : a.length = 64) : blocks a = [a] := by
  rw [blocks, dif_neg (by omega), List.take_of_length_le (by omega), blocks_short _ (by simp; omega)]

theorem split_full (m : List UInt8) : ∃ a, m = a ++ partialBlock m ∧ a.length % 64 = 0 ∧ (partialBlock m).length = m.length % 64 := by
  refine ⟨m.take (m.length / 64 * 64), ?_, ?_, ?_⟩
  · rw [partialBlock, List.take_append_drop]
  · simp only [List.length_take]; omega
  · simp only [partialBlock, List.length_drop]; omega

theorem partial_append (a b : List UInt8) (h : a.length % 64 = 0) : partialBlock (a ++ b) = partialBlock b := by
  unfold partialBlock
  rw [List.length_append, show (a.length + b.length) / 64 * 64 = a.length + b.length / 64 * 64 by omega, ← List.drop_drop,
    List.drop_left]

/-- the context stands for the message `m` -/
def Rep (c : ShaCtx) (m : List UInt8) : Prop :=
  c.size = m.length ∧ c.H.tup = hashOf m ∧ c.W.length = 64 ∧ c.W.take (m.length % 64) = partialBlock m

theorem wPut_length (w : List UInt8) (pos : Nat) (d : List UInt8) (h : pos + d.length ≤ w.length) : (wPut w pos d).length = w.length := by
  simp [wPut]; omega

theorem wPut_take (w : List UInt8) (pos : Nat) (d : List UInt8) (h : pos + d.length ≤ w.length) :
    (wPut w pos d).take (pos + d.length) = w.take pos ++ d := by
  unfold wPut
  have : (w.take pos ++ d).length = pos + d.length := by simp; omega
  rw [← this, List.take_left]

theorem shaLoop_spec (h : Regs) (data : List UInt8) :
    (shaLoop h data).1.tup = (blocks data).foldl step h.tup ∧ (shaLoop h data).2 = partialBlock data := by
  generalize hn : data.length = n
  induction n using Nat.strongRecOn generalizing h data with
  | ind n ih =>
    rw [shaLoop, blocks]
    by_cases hl : data.length ≥ 64
    · rw [if_pos hl, dif_neg (by omega)]
      obtain ⟨h1, h2⟩ := ih (n - 64) (by omega) (shaBlock h (data.take 64)) (data.drop 64) (by simp; omega)
      refine ⟨?_, ?_⟩
      · rw [h1, shaBlock_eq]; rfl
      · rw [h2]
        have := partial_append (data.take 64) (data.drop 64) (by simp; omega)
        rwa [List.take_append_drop, eq_comm] at this
    · rw [if_neg hl, dif_pos (by omega)]
      refine ⟨rfl, ?_⟩
      rw [partialBlock, show data.length / 64 * 64 = 0 by omega]; rfl

theorem shaTail_rep (size : Nat) (h : Regs) (w data m : List UInt8) (hs : size = (m ++ data).length) (hm : m.length % 64 = 0)
    (hh : h.tup = hashOf m) (hw : w.length = 64) : Rep (shaTail size h w data) (m ++ data) := by
  obtain ⟨h1, h2⟩ := shaLoop_spec h data
  have hp : (partialBlock data).length = data.length % 64 := (split_full data).choose_spec.2.2
  have hmod : (m ++ data).length % 64 = data.length % 64 := by simp; omega
  have hH : (shaLoop h data).1.tup = hashOf (m ++ data) := by
    rw [h1, hashOf, blocks_append m data hm, List.foldl_append, hh]; rfl
  unfold shaTail
  simp only [h2]
  by_cases h0 : (partialBlock data).length ≠ 0
  · rw [if_pos h0]
    have hlt : data.length % 64 < 64 := Nat.mod_lt _ (by decide)
    refine ⟨hs, hH, ?_, ?_⟩
    · show (wPut w 0 _).length = 64
      rw [wPut_length _ _ _ (by omega)]; exact hw
    · show (wPut w 0 (partialBlock data)).take _ = _
      have := wPut_take w 0 (partialBlock data) (by omega)
      rw [Nat.zero_add, hp] at this
      rw [hmod, this, partial_append m data hm]; simp
  · rw [if_neg h0]
    have h0 : (partialBlock data).length = 0 := by omega
    refine ⟨hs, hH, hw, ?_⟩
    rw [hmod, ← hp, h0, partial_append m data hm, List.take_zero]
    exact (List.length_eq_zero_iff.mp h0).symm

theorem shaUpdate_rep (c : ShaCtx) (m data : List UInt8) (hc : Rep c m) (hlen : (m ++ data).length < 2 ^ 64) :
    Rep (shaUpdate c data) (m ++ data) := by
  obtain ⟨h1, h2, h3, h4⟩ := hc
  have hlt : m.length % 64 < 64 := Nat.mod_lt _ (by decide)
  have hsize : (c.size + data.length) % 2 ^ 64 = (m ++ data).length := by
    rw [h1, ← List.length_append, Nat.mod_eq_of_lt hlen]
  unfold shaUpdate
  simp only [hsize]
  by_cases h0 : c.size % 64 ≠ 0
  · rw [if_pos h0]
    rw [h1] at h0
    obtain ⟨a, ha1, ha2, ha3⟩ := split_full m
    by_cases hl : data.length < 64 - c.size % 64
    · rw [if_pos hl, if_pos (by omega), List.take_of_length_le (Nat.le_refl _)]
      rw [h1] at hl ⊢
      have hmod : (m ++ data).length % 64 = m.length % 64 + data.length := by simp; omega
      have hpb : partialBlock (m ++ data) = partialBlock m ++ data := by
        conv => lhs; rw [ha1, List.append_assoc, partial_append a _ ha2]
        have : (partialBlock m ++ data).length < 64 := by simp; omega
        rw [partialBlock.eq_def (partialBlock m ++ data), show (partialBlock m ++ data).length / 64 * 64 = 0 by omega]; rfl
      refine ⟨rfl, ?_, ?_, ?_⟩
      · show c.H.tup = _
        rw [h2, hashOf, hashOf]
        conv => lhs; rw [ha1, blocks_append a _ ha2, blocks_short (partialBlock m) (by omega)]
        conv => rhs; rw [ha1, List.append_assoc, blocks_append a _ ha2, blocks_short (partialBlock m ++ data) (by simp; omega)]
      · show (wPut _ _ _).length = 64
        rw [wPut_length _ _ _ (by omega)]; exact h3
      · show (wPut _ _ _).take _ = _
        rw [hmod, wPut_take _ _ _ (by omega), h4, hpb]
    · rw [if_neg hl, if_neg (by omega)]
      rw [h1] at hl ⊢
      have htl : (data.take (64 - m.length % 64)).length = 64 - m.length % 64 := by simp; omega
      have hw : wPut c.W (m.length % 64) (data.take (64 - m.length % 64)) = partialBlock m ++ data.take (64 - m.length % 64) := by
        have := wPut_take c.W (m.length % 64) (data.take (64 - m.length % 64)) (by omega)
        have hl2 := wPut_length c.W (m.length % 64) (data.take (64 - m.length % 64)) (by omega)
        rw [List.take_of_length_le (by omega), h4] at this
        exact this
      rw [hw]
      have hdec : m ++ data = (m ++ data.take (64 - m.length % 64)) ++ data.drop (64 - m.length % 64) := by
        rw [List.append_assoc, List.take_append_drop]
      conv => rhs; rw [hdec]
      have hml : (m ++ data.take (64 - m.length % 64)).length % 64 = 0 := by rw [List.length_append, htl]; omega
      apply shaTail_rep
      · rw [← hdec]
      · exact hml
      · rw [shaBlock_eq, h2, hashOf, hashOf]
        have hb1 : blocks m = blocks a := by
          conv => lhs; rw [ha1, blocks_append a _ ha2, blocks_short (partialBlock m) (by omega), List.append_nil]
        have hb2 : blocks (m ++ data.take (64 - m.length % 64)) = blocks a ++ [partialBlock m ++ data.take (64 - m.length % 64)] := by
          conv => lhs; rw [ha1, List.append_assoc, blocks_append a _ ha2]
          rw [← blocks_one (partialBlock m ++ data.take (64 - m.length % 64)) (by rw [List.length_append, htl]; omega)]
          rw [← ha1]
        rw [hb1, hb2, List.foldl_append]; rfl
      · rw [List.length_append, htl]; omega
  · rw [if_neg h0]
    exact shaTail_rep _ _ _ _ m rfl (by omega) h2 h3

theorem foldl_rep (chunks : List (List UInt8)) (c : ShaCtx) (m : List UInt8) (hc : Rep c m) (hlen : (m ++ chunks.flatten).length < 2 ^ 64) :
    Rep (chunks.foldl shaUpdate c) (m ++ chunks.flatten) := by
  induction chunks generalizing c m with
  | nil => simpa using hc
  | cons d ds ih =>
    rw [List.flatten_cons, ← List.append_assoc] at hlen ⊢
    exact ih _ _ (shaUpdate_rep c m d hc (by simp at hlen ⊢; omega)) hlen

theorem be32_eq (x : UInt32) : be32 x = bigEndian 4 x.toNat := by
  simp only [be32, bigEndian, List.nil_append, List.cons_append, List.append_nil]
  have h : ∀ k : Nat, k < 32 → (x >>> UInt32.ofNat k).toUInt8 = UInt8.ofNat (x.toNat / 2 ^ k) := by
    intro k hk
    apply UInt8.toNat_inj.mp
    simp [Nat.shiftRight_eq_div_pow]
    rw [Nat.mod_eq_of_lt hk]
  have h24 := h 24 (by decide)
  have h16 := h 16 (by decide)
  have h8 := h 8 (by decide)
  have e1 : x.toNat / 256 / 256 / 256 = x.toNat / 2 ^ 24 := by omega
  have e2 : x.toNat / 256 / 256 = x.toNat / 2 ^ 16 := by omega
  have e3 : x.toNat / 256 = x.toNat / 2 ^ 8 := by omega
  rw [e1, e2, e3, ← h24, ← h16, ← h8]
  have : x.toUInt8 = UInt8.ofNat x.toNat := by
    apply UInt8.toNat_inj.mp; simp
  rw [this]; rfl

theorem bigEndian_mod (k n : Nat) : bigEndian k (n % 256 ^ k) = bigEndian k n := by
  induction k generalizing n with
  | zero => rfl
  | succ k ih =>
    rw [bigEndian, bigEndian]
    congr 1
    · rw [← ih (n / 256)]
      congr 1
      rw [Nat.pow_succ, Nat.mod_mul_left_div_self]
    · congr 1
      apply UInt8.toNat_inj.mp
      simp
      rw [Nat.pow_succ, Nat.mod_mul_left_mod]

theorem bigEndian_add (j k n : Nat) : bigEndian (j + k) n = bigEndian j (n / 256 ^ k) ++ bigEndian k n := by
  induction k generalizing n with
  | zero => simp [bigEndian]
  | succ k ih =>
    rw [← Nat.add_assoc, bigEndian, bigEndian, ih, List.append_assoc, Nat.div_div_eq_div_mul, Nat.pow_succ, Nat.mul_comm 256]

theorem bigEndian_length (k n : Nat) : (bigEndian k n).length = k := by
  induction k generalizing n with
  | zero => rfl
  | succ k ih => simp [bigEndian, ih]

/-- **C23**. For every message below the 2^61 bytes the standard allows, every way of cutting it into pieces and whatever the
uninitialised buffer held: the digest is the SHA-1 of the message. -/
theorem C23_sha1 (w : List UInt8) (hw : w.length = 64) (chunks : List (List UInt8)) (hlen : chunks.flatten.length < 2 ^ 61) :
    shaOfChunks w chunks = sha1 chunks.flatten := by
  have h0 : Rep (shaInit w) [] := by
    refine ⟨rfl, ?_, hw, by simp [partialBlock]⟩
    rw [hashOf, blocks_short _ (by simp)]; rfl
  have h1 := foldl_rep chunks (shaInit w) [] h0 (by rw [List.nil_append]; omega)
  rw [List.nil_append] at h1
  unfold shaOfChunks
  generalize chunks.foldl shaUpdate (shaInit w) = c at h1
  generalize chunks.flatten = m at h1 hlen
  have hsz := h1.1
  have hlt : m.length % 64 < 64 := Nat.mod_lt _ (by decide)
  have hpad : (0x80 :: List.replicate 63 (0 : UInt8)).take (1 + (55 + 64 - m.length % 64) % 64) =
      [0x80] ++ List.replicate ((119 - m.length % 64) % 64) 0 := by
    rw [Nat.add_comm 1, List.take_succ_cons, List.take_replicate, Nat.min_eq_left (by omega)]; rfl
  have hpl : be32 (UInt32.ofNat (m.length / 2 ^ 29)) ++ be32 (UInt32.ofNat (m.length * 8)) = bigEndian 8 (8 * m.length) := by
    have ha := bigEndian_add 4 4 (8 * m.length)
    rw [show 4 + 4 = 8 by rfl] at ha
    rw [be32_eq, be32_eq, ha]
    congr 1
    · congr 1
      rw [UInt32.toNat_ofNat']
      omega
    · rw [← bigEndian_mod 4 (8 * m.length), UInt32.toNat_ofNat']
      congr 1
      omega
  have h2 := shaUpdate_rep c m ([0x80] ++ List.replicate ((119 - m.length % 64) % 64) 0) h1
    (by simp only [List.length_append, List.length_replicate, List.length_cons, List.length_nil]; omega)
  have h3 := shaUpdate_rep _ _ (bigEndian 8 (8 * m.length)) h2
    (by simp only [List.length_append, List.length_replicate, List.length_cons, List.length_nil, bigEndian_length]; omega)
  have hp : m ++ ([0x80] ++ List.replicate ((119 - m.length % 64) % 64) 0) ++ bigEndian 8 (8 * m.length) = padded m := by
    simp [padded]
  rw [hp] at h3
  unfold shaFinal sha1
  simp only [hsz, hpad, hpl]
  have h4 := h3.2.1
  rw [hashOf] at h4
  rw [← h4]
  simp only [Regs.tup, be32_eq]

/-- every block of the padded message is used: its length is a multiple of 64 -/
theorem C23_padded_length (m : List UInt8) : (padded m).length % 64 = 0 := by
  simp only [padded, List.length_append, List.length_replicate, List.length_cons, List.length_nil, bigEndian_length]
  omega

/-- non-vacuity: the example of the standard, `"abc"`, in two pieces -/
example : shaOfChunks (List.replicate 64 0xaa) [[0x61], [0x62, 0x63]] =
    [0xa9, 0x99, 0x3e, 0x36, 0x47, 0x06, 0x81, 0x6a, 0xba, 0x3e, 0x25, 0x71, 0x78, 0x50, 0xc2, 0x6c, 0x9c, 0xd0, 0xd8, 0x9d] := by
  decide +kernel

end BX
