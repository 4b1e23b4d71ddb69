import Verif.Spec.Dump
import Verif.Props.Value
import Verif.Props.Buffers
/-
The texts that the loops over chunks print.
-/
namespace BX
open XBT Spec

/-- the loop for a value that is printed by one call -/
theorem printLoop_once {gm : Gm} {flt : List UInt8 → CStr} {d : Data} {b b' : CStr} {s : CStr} (h0 : chunkOnce gm flt d 0 b = .ok (s.length, 4, b')) (hb : bufText b' = s)
    (h1 : ∀ b, ∃ c, chunkOnce gm flt d 4 b = .ok (0, c)) (fuel : Nat) : printLoop gm flt d (fuel + 2) 0 b = .ok s := by
  rw [printLoop, h0, Out.ok_bind]
  by_cases hs : s.length = 0
  · rw [if_pos hs, List.eq_nil_of_length_eq_zero hs]; rfl
  · rw [if_neg hs]
    obtain ⟨c, hc⟩ := h1 b'
    show printLoop gm flt d (fuel + 1) 4 b' >>= _ = _
    rw [printLoop, hc, Out.ok_bind, if_pos rfl, Out.pure_eq, Out.ok_bind, Out.pure_eq, hb, List.append_nil]

theorem printLoop_str {gm : Gm} {flt : List UInt8 → CStr} {bytes : List UInt8} (ht : (cPrefix bytes).length ≠ bytes.length) {s : CStr} (hs : s = toC (cPrefix bytes)) (hn : '\x00' ∉ s) :
    ∀ (n offset : Nat) (b : CStr), b.length = 4097 → s.length - offset ≤ n → ∀ fuel, printLoop gm flt ⟨STRING, bytes⟩ (fuel + n + 1) offset b = .ok (s.drop offset) := by
  have once : ∀ offset (b : CStr), chunkOnce gm flt ⟨STRING, bytes⟩ offset b = (do
      let r ← chunkStr s offset b.length
      return (r.1, r.2.1, if r.1 = 0 then bufPut b (b.length - 1) ['\x00'] else r.2.2 ++ List.replicate (b.length - r.2.2.length) '\x00')) := by
    intro offset b
    unfold chunkOnce
    simp only [if_neg ht, hs]
  intro n
  induction n with
  | zero =>
    intro offset b hb ho fuel
    have : s.length ≤ offset := by omega
    rw [printLoop, once]
    unfold chunkStr
    rw [if_neg (by omega), if_pos this]
    simp only [Out.ok_bind, Out.pure_eq, if_true]
    rw [List.drop_eq_nil_of_le this]
  | succ n ih =>
    intro offset b hb ho fuel
    rw [printLoop, once]
    unfold chunkStr
    rw [if_neg (by omega)]
    by_cases hl : s.length ≤ offset
    · rw [if_pos hl]
      simp only [Out.ok_bind, Out.pure_eq, if_true]
      rw [List.drop_eq_nil_of_le hl]
    · rw [if_neg hl]
      have hlen : ((s.drop offset).take (b.length - 1)).length = min 4096 (s.length - offset) := by simp [hb]
      simp only [Out.ok_bind, Out.pure_eq]
      rw [if_neg (by omega), if_neg (by omega)]
      have := ih (offset + ((s.drop offset).take (b.length - 1)).length) ((s.drop offset).take (b.length - 1) ++ List.replicate (b.length - ((s.drop offset).take (b.length - 1)).length) '\x00')
        (by simp [hb]; omega) (by omega) fuel
      rw [show fuel + (n + 1) = fuel + n + 1 by omega, this, Out.ok_bind]
      congr 1
      have hbt : bufText ((s.drop offset).take (b.length - 1) ++ List.replicate (b.length - ((s.drop offset).take (b.length - 1)).length) '\x00') = (s.drop offset).take (b.length - 1) := by
        obtain ⟨k, hk⟩ : ∃ k, b.length - ((s.drop offset).take (b.length - 1)).length = k + 1 := ⟨b.length - ((s.drop offset).take (b.length - 1)).length - 1, by omega⟩
        rw [hk, List.replicate_succ]
        refine takeWhile_stop _ _ _ _ (fun c hc => ?_) (by simp)
        have := List.mem_of_mem_drop (List.mem_of_mem_take hc)
        simp only [ne_eq, decide_not, Bool.not_eq_eq_eq_not, Bool.not_true, decide_eq_false_iff_not]
        intro hcc; exact hn (hcc ▸ this)
      rw [hbt, hlen, ← List.drop_drop]
      rw [show min 4096 (s.length - offset) = ((s.drop offset).take (b.length - 1)).length from hlen.symm]
      have htk : ((s.drop offset).take (b.length - 1)).length = min (b.length - 1) (s.drop offset).length := by simp
      rw [htk]
      have : (s.drop offset).drop (min (b.length - 1) (s.drop offset).length) = (s.drop offset).drop (b.length - 1) := by
        rcases Nat.le_total (b.length - 1) (s.drop offset).length with h | h
        · rw [Nat.min_eq_left h]
        · rw [Nat.min_eq_right h, List.drop_length, List.drop_eq_nil_of_le h]
      rw [this, List.take_append_drop]

theorem printLoop_blob {gm : Gm} {flt : List UInt8 → CStr} {bytes : List UInt8} : ∀ (n offset : Nat) (b : CStr), b.length = 4097 → (bytes.drop 4).length - offset ≤ n →
    (offset % 3 = 0 ∨ offset = (bytes.drop 4).length) → ∀ fuel, printLoop gm flt ⟨BLOB, bytes⟩ (fuel + n + 1) offset b = .ok (text64 ((bytes.drop 4).drop offset)) := by
  generalize hdata : bytes.drop 4 = data
  have once : ∀ offset (b : CStr), chunkOnce gm flt ⟨BLOB, bytes⟩ offset b = chunkBlob data offset b := by
    intro offset b; unfold chunkOnce; rw [← hdata]
  intro n
  induction n with
  | zero =>
    intro offset b hb ho h3 fuel
    have : data.length ≤ offset := by omega
    rw [printLoop, once]
    simp only [chunkBlob, if_neg (by omega : ¬ b.length ≤ 256), if_pos this, Out.ok_bind, if_true]
    rw [List.drop_eq_nil_of_le this]; rfl
  | succ n ih =>
    intro offset b hb ho h3 fuel
    rw [printLoop, once]
    by_cases hl : data.length ≤ offset
    · simp only [chunkBlob, if_neg (by omega : ¬ b.length ≤ 256), if_pos hl, Out.ok_bind, if_true]
      rw [List.drop_eq_nil_of_le hl]; rfl
    · obtain ⟨chunk, b', h1, h2, h4, h5, h6, h7, h8, h9⟩ := chunkBlob_step data offset b (by omega) (Or.inl (by omega)) (by omega)
      rw [h1, Out.ok_bind]
      dsimp only
      have hne : (text64 ((data.drop offset).take chunk)).length ≠ 0 := by
        rw [text64_length]; simp; omega
      rw [if_neg hne, show fuel + (n + 1) = fuel + n + 1 by omega, ih (offset + chunk) b' (by omega) (by omega) (by omega) fuel, Out.ok_bind, Out.pure_eq, h2]
      congr 1
      by_cases hend : offset + chunk = data.length
      · rw [List.drop_eq_nil_of_le (by omega : data.length ≤ offset + chunk)]
        rw [List.take_of_length_le (by simp; omega)]
        simp [text64]
      · have h30 : chunk % 3 = 0 := by omega
        rw [← List.drop_drop, ← text64_append _ _ (by simp; omega)]
        rw [List.take_append_drop]

theorem printLoop_hex {gm : Gm} {flt : List UInt8 → CStr} {bytes : List UInt8} : ∀ (n offset : Nat) (b : CStr), b.length = 4097 → (bytes.drop 4).length - offset ≤ n →
    ∀ fuel, printLoop gm flt ⟨HEX, bytes⟩ (fuel + n + 1) offset b = .ok (hexLines ((bytes.drop 4).drop offset)) := by
  generalize hdata : bytes.drop 4 = data
  have once : ∀ offset (b : CStr), chunkOnce gm flt ⟨HEX, bytes⟩ offset b =
      .ok ((chunkHex data offset).1, (chunkHex data offset).2.1, bufPut (bufPut b (b.length - 1) ['\x00']) 0 (chunkHex data offset).2.2) := by
    intro offset b; unfold chunkOnce; rw [← hdata]
  intro n
  induction n with
  | zero =>
    intro offset b hb ho fuel
    have : data.length ≤ offset := by omega
    rw [printLoop, once, Out.ok_bind]
    unfold chunkHex
    rw [if_pos this, if_pos rfl, List.drop_eq_nil_of_le this, hexLines, dif_pos rfl]; rfl
  | succ n ih =>
    intro offset b hb ho fuel
    rw [printLoop, once, Out.ok_bind]
    unfold chunkHex
    by_cases hl : data.length ≤ offset
    · rw [if_pos hl, if_pos rfl, List.drop_eq_nil_of_le hl, hexLines, dif_pos rfl]; rfl
    · rw [if_neg hl]
      dsimp only
      have hll : ((data.drop offset).take 16).length = min 16 (data.length - offset) := by simp
      have h2l := hex2Str_length ((data.drop offset).take 16)
      rw [if_neg (by omega), show fuel + (n + 1) = fuel + n + 1 by omega,
        ih (offset + ((data.drop offset).take 16).length) _ (by rw [bufPut_length _ _ _ (by rw [bufPut_length _ _ _ (by simp; omega)]; simp; omega), bufPut_length _ _ _ (by simp; omega)]; exact hb) (by omega) fuel,
        Out.ok_bind, Out.pure_eq]
      congr 1
      have hbt := bufText_put (bufPut b (b.length - 1) ['\x00']) (hex2Str ((data.drop offset).take 16) ++ ['\n']) (by
        intro c hc
        rcases List.mem_append.1 hc with hc | hc
        · exact hex_ne_nul _ c hc
        · simp only [List.mem_cons, List.not_mem_nil, or_false] at hc; subst hc; decide)
      rw [List.append_assoc] at hbt
      rw [show ['\n'] ++ ['\x00'] = ['\n', '\x00'] from rfl] at hbt
      rw [hbt, ← List.drop_drop]
      conv => rhs; rw [hexLines, dif_neg (fun h => by have := congrArg List.length h; simp at this; omega)]
      rw [List.append_assoc, List.singleton_append]
      congr 2
      rw [hll]
      rcases Nat.le_total 16 (data.length - offset) with h | h
      · rw [Nat.min_eq_left h]
      · rw [Nat.min_eq_right h]
        rw [List.drop_eq_nil_of_le (by simp), List.drop_eq_nil_of_le (by simpa using h)]

/-- the loop over the chunks of a value prints its text, whatever the buffer contains; the first call returns 0 exactly for the empty text -/
theorem printLoop_text {gm : Gm} {flt : List UInt8 → CStr} {d : Data} {s : CStr} (h : dataText gm flt d = some s) (hn : '\x00' ∉ s) (ht : d.type = STRING → (cPrefix d.bytes).length ≠ d.bytes.length)
    {b : CStr} (hb : b.length = 4097) :
    (∃ n, ∀ fuel, n ≤ fuel → printLoop gm flt d fuel 0 b = .ok s) ∧ ∃ r, chunkOnce gm flt d 0 b = .ok r ∧ (r.1 = 0 ↔ s = []) := by
  obtain ⟨t, bytes⟩ := d
  unfold dataText at h
  simp only at h ht
  by_cases h1 : t = STRING
  · subst h1
    rw [if_pos rfl] at h
    injection h with h
    have ht := ht rfl
    refine ⟨⟨s.length + 1, fun fuel hf => ?_⟩, ?_⟩
    · obtain ⟨k, rfl⟩ : ∃ k, fuel = k + s.length + 1 := ⟨fuel - s.length - 1, by omega⟩
      exact printLoop_str ht h.symm hn s.length 0 b hb (by omega) k
    · unfold chunkOnce
      simp only [if_neg ht, chunkStr, if_neg (show ¬ b.length ≤ 256 by omega), show toC (cPrefix bytes) = s from h, List.drop_zero]
      by_cases hs : s.length ≤ 0
      · rw [if_pos hs]; exact ⟨_, rfl, by simp [List.eq_nil_of_length_eq_zero (Nat.le_zero.1 hs)]⟩
      · rw [if_neg hs]
        refine ⟨_, rfl, ?_⟩
        have : ((s.take (b.length - 1)).length = 0) ↔ s = [] := by
          rw [List.length_take, hb]
          constructor
          · intro h0; exact List.eq_nil_of_length_eq_zero (by omega)
          · intro h0; subst h0; rfl
        exact this
  rw [if_neg h1] at h
  by_cases h2 : t = BLOB
  · subst h2
    rw [if_pos rfl] at h
    injection h with h
    refine ⟨⟨(bytes.drop 4).length + 1, fun fuel hf => ?_⟩, ?_⟩
    · obtain ⟨k, rfl⟩ : ∃ k, fuel = k + (bytes.drop 4).length + 1 := ⟨fuel - (bytes.drop 4).length - 1, by omega⟩
      have := printLoop_blob (gm := gm) (flt := flt) (bytes := bytes) (bytes.drop 4).length 0 b hb (by omega) (Or.inl rfl) k
      rw [this, List.drop_zero, h]
    · unfold chunkOnce
      simp only
      have e := text64_length (bytes.drop 4)
      by_cases hl : (bytes.drop 4).length ≤ 0
      · simp only [chunkBlob, if_neg (by omega : ¬ b.length ≤ 256), if_pos hl]
        have := List.eq_nil_of_length_eq_zero (Nat.le_zero.1 hl)
        rw [this] at h
        exact ⟨_, rfl, by simp [← h, text64]⟩
      · obtain ⟨chunk, b', g1, g2, g4, g5, g6, g7, g8, g9⟩ := chunkBlob_step (bytes.drop 4) 0 b (by omega) (Or.inl (by omega)) (by omega)
        rw [g1]
        refine ⟨_, rfl, ?_⟩
        have l1 := text64_length (((bytes.drop 4).drop 0).take chunk)
        have l2 : (((bytes.drop 4).drop 0).take chunk).length = chunk := by
          rw [List.drop_zero, List.length_take]; omega
        constructor
        · intro h0; dsimp only at h0; omega
        · intro h0; subst h0; rw [h] at e; simp only [List.length_nil] at e; omega
  rw [if_neg h2] at h
  by_cases h3 : t = HEX
  · subst h3
    rw [if_pos rfl] at h
    injection h with h
    refine ⟨⟨(bytes.drop 4).length + 1, fun fuel hf => ?_⟩, ?_⟩
    · obtain ⟨k, rfl⟩ : ∃ k, fuel = k + (bytes.drop 4).length + 1 := ⟨fuel - (bytes.drop 4).length - 1, by omega⟩
      have := printLoop_hex (gm := gm) (flt := flt) (bytes := bytes) (bytes.drop 4).length 0 b hb (by omega) k
      rw [this, List.drop_zero, h]
    · unfold chunkOnce
      simp only
      refine ⟨_, rfl, ?_⟩
      unfold chunkHex
      by_cases hl : (bytes.drop 4).length ≤ 0
      · rw [if_pos hl]
        have := List.eq_nil_of_length_eq_zero (Nat.le_zero.1 hl)
        rw [this, hexLines, dif_pos rfl] at h
        simp [← h]
      · rw [if_neg hl, hexLines, dif_neg (fun h' => hl (by rw [h']; simp))] at *
        subst h
        simp
  rw [if_neg h3] at h
  by_cases h4 : t = INT64 ∨ t = UINT64
  · rw [if_pos h4] at h; cases h
  rw [if_neg h4] at h
  simp only [not_or] at h4
  have key : ∀ (s : CStr), chunkText gm flt t bytes = .ok s → '\x00' ∉ s → (∀ offset b, t ≠ NULL → chunkOnce gm flt ⟨t, bytes⟩ offset b =
      if offset > 0 then .ok (0, offset, bufPut b (b.length - 1) ['\x00']) else .ok (s.length, 4, bufPut (bufPut b (b.length - 1) ['\x00']) 0 (s ++ ['\x00']))) ∧
      (t = NULL → s = [] ∧ ∀ offset b, chunkOnce gm flt ⟨t, bytes⟩ offset b = .ok (0, offset, bufPut b (b.length - 1) ['\x00'])) := by
    intro s hs _
    cases t <;> first
      | contradiction
      | (simp [chunkText] at hs; done)
      | (exact absurd rfl h4.1)
      | (exact absurd rfl h4.2)
      | (refine ⟨fun offset b hN => ?_, fun h' => by cases h'⟩; unfold chunkOnce; simp only; rw [hs]; rfl)
      | (refine ⟨fun offset b hN => absurd rfl hN, fun _ => ⟨by simpa [chunkText] using hs.symm, fun _ _ => rfl⟩⟩)
  cases hc : chunkText gm flt t bytes with
  | fail => rw [hc] at h; cases h
  | ub => rw [hc] at h; cases h
  | ok s' =>
    rw [hc] at h
    injection h with h
    subst h
    obtain ⟨k1, k2⟩ := key s' hc hn
    by_cases hN : t = NULL
    · obtain ⟨e1, e2⟩ := k2 hN
      subst e1
      refine ⟨⟨1, fun fuel hf => ?_⟩, _, e2 0 b, by simp⟩
      obtain ⟨k, rfl⟩ : ∃ k, fuel = k + 1 := ⟨fuel - 1, by omega⟩
      rw [printLoop, e2, Out.ok_bind, if_pos rfl]; rfl
    · have c0 := k1 0 b hN
      rw [if_neg (by omega)] at c0
      refine ⟨⟨2, fun fuel hf => ?_⟩, _, c0, ?_⟩
      · obtain ⟨k, rfl⟩ : ∃ k, fuel = k + 2 := ⟨fuel - 2, by omega⟩
        refine printLoop_once c0 (bufText_put _ _ (fun c hcc => fun e => hn (e ▸ hcc))) (fun b => ?_) k
        rw [k1 4 b hN, if_pos (by omega)]
        exact ⟨_, rfl⟩
      · show s'.length = 0 ↔ s' = []
        exact List.length_eq_zero_iff

end BX
