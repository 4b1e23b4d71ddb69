import Verif.Spec.Stream
import Verif.Lemmas.Dump
import Verif.Props.Dump
/-
What `XBT_ToXMLStream` prints, and how the printed tree is read.
-/
namespace BX
open XBT Spec

theorem escText_append (a b : CStr) : escText (a ++ b) = escText a ++ escText b := by unfold escText; rw [List.flatMap_append]

theorem escText_nil : escText [] = [] := rfl

theorem put_take (b s : CStr) (l : CStr) : (bufPut b 0 (s ++ l)).take s.length = s := by
  unfold bufPut
  rw [List.take_zero, List.nil_append, List.append_assoc, List.take_left]

theorem put_take' (b s : CStr) : (bufPut b 0 s).take s.length = s := by
  have := put_take b s []
  rwa [List.append_nil] at this

theorem take_bufText (b : CStr) : b.take (bufText b).length = bufText b := by
  obtain ⟨r, hr⟩ : ∃ r, b = bufText b ++ r := ⟨b.dropWhile (· ≠ '\x00'), (List.takeWhile_append_dropWhile).symm⟩
  conv => lhs; rw [hr]
  rw [List.take_left' ]
  rw [← hr]

theorem xmlLoop_once {gm : Gm} {flt : List UInt8 → CStr} {d : Data} {b b' : CStr} {s : CStr} (h0 : chunkOnce gm flt d 0 b = .ok (s.length, 4, b')) (hb : b'.take s.length = s)
    (h1 : ∀ b, ∃ c, chunkOnce gm flt d 4 b = .ok (0, c)) (fuel : Nat) : xmlLoop gm flt d (fuel + 2) 0 b = .ok (escText s) := by
  rw [xmlLoop, h0, Out.ok_bind]
  by_cases hs : s.length = 0
  · rw [if_pos hs, List.eq_nil_of_length_eq_zero hs]; rfl
  · rw [if_neg hs]
    obtain ⟨c, hc⟩ := h1 b'
    show xmlLoop gm flt d (fuel + 1) 4 b' >>= _ = _
    rw [xmlLoop, hc, Out.ok_bind, if_pos rfl, Out.pure_eq, Out.ok_bind, Out.pure_eq, hb, List.append_nil]

theorem xmlLoop_str {gm : Gm} {flt : List UInt8 → CStr} {bytes : List UInt8} (ht : (cPrefix bytes).length ≠ bytes.length) {s : CStr} (hs : s = toC (cPrefix bytes)) :
    ∀ (n offset : Nat) (b : CStr), b.length = 4097 → s.length - offset ≤ n → ∀ fuel, xmlLoop gm flt ⟨STRING, bytes⟩ (fuel + n + 1) offset b = .ok (escText (s.drop offset)) := by
  have once : ∀ offset (b : CStr), chunkOnce gm flt ⟨STRING, bytes⟩ offset b = (do
      let r ← chunkStr s offset b.length
      return (r.1, r.2.1, if r.1 = 0 then bufPut b (b.length - 1) ['\x00'] else r.2.2 ++ List.replicate (b.length - r.2.2.length) '\x00')) := by
    intro offset b
    unfold chunkOnce
    simp only [if_neg ht, hs]
  intro n
  induction n with
  | zero =>
    intro offset b hb ho fuel
    have : s.length ≤ offset := by omega
    rw [xmlLoop, once]
    unfold chunkStr
    rw [if_neg (by omega), if_pos this]
    simp only [Out.ok_bind, Out.pure_eq, if_true]
    rw [List.drop_eq_nil_of_le this]; rfl
  | succ n ih =>
    intro offset b hb ho fuel
    rw [xmlLoop, once]
    unfold chunkStr
    rw [if_neg (by omega)]
    by_cases hl : s.length ≤ offset
    · rw [if_pos hl]
      simp only [Out.ok_bind, Out.pure_eq, if_true]
      rw [List.drop_eq_nil_of_le hl]; rfl
    · rw [if_neg hl]
      have hlen : ((s.drop offset).take (b.length - 1)).length = min 4096 (s.length - offset) := by simp [hb]
      simp only [Out.ok_bind, Out.pure_eq]
      rw [if_neg (by omega), if_neg (by omega)]
      have := ih (offset + ((s.drop offset).take (b.length - 1)).length) ((s.drop offset).take (b.length - 1) ++ List.replicate (b.length - ((s.drop offset).take (b.length - 1)).length) '\x00')
        (by simp [hb]; omega) (by omega) fuel
      rw [show fuel + (n + 1) = fuel + n + 1 by omega, this, Out.ok_bind]
      congr 1
      rw [List.take_left, ← escText_append]
      congr 1
      rw [hlen, ← List.drop_drop]
      have htk : min 4096 (s.length - offset) = min (b.length - 1) (s.drop offset).length := by simp [hb]
      rw [htk]
      have : (s.drop offset).drop (min (b.length - 1) (s.drop offset).length) = (s.drop offset).drop (b.length - 1) := by
        rcases Nat.le_total (b.length - 1) (s.drop offset).length with h | h
        · rw [Nat.min_eq_left h]
        · rw [Nat.min_eq_right h, List.drop_length, List.drop_eq_nil_of_le h]
      rw [this, List.take_append_drop]

theorem xmlLoop_blob {gm : Gm} {flt : List UInt8 → CStr} {bytes : List UInt8} : ∀ (n offset : Nat) (b : CStr), b.length = 4097 → (bytes.drop 4).length - offset ≤ n →
    (offset % 3 = 0 ∨ offset = (bytes.drop 4).length) → ∀ fuel, xmlLoop gm flt ⟨BLOB, bytes⟩ (fuel + n + 1) offset b = .ok (escText (text64 ((bytes.drop 4).drop offset))) := by
  generalize hdata : bytes.drop 4 = data
  have once : ∀ offset (b : CStr), chunkOnce gm flt ⟨BLOB, bytes⟩ offset b = chunkBlob data offset b := by
    intro offset b; unfold chunkOnce; rw [← hdata]
  intro n
  induction n with
  | zero =>
    intro offset b hb ho h3 fuel
    have : data.length ≤ offset := by omega
    rw [xmlLoop, once]
    simp only [chunkBlob, if_neg (by omega : ¬ b.length ≤ 256), if_pos this, Out.ok_bind, if_true]
    rw [List.drop_eq_nil_of_le this]; rfl
  | succ n ih =>
    intro offset b hb ho h3 fuel
    rw [xmlLoop, once]
    by_cases hl : data.length ≤ offset
    · simp only [chunkBlob, if_neg (by omega : ¬ b.length ≤ 256), if_pos hl, Out.ok_bind, if_true]
      rw [List.drop_eq_nil_of_le hl]; rfl
    · obtain ⟨chunk, b', h1, h2, h4, h5, h6, h7, h8, h9⟩ := chunkBlob_step data offset b (by omega) (Or.inl (by omega)) (by omega)
      rw [h1, Out.ok_bind]
      dsimp only
      have hne : (text64 ((data.drop offset).take chunk)).length ≠ 0 := by
        rw [text64_length]; simp; omega
      have ht := take_bufText b'
      rw [h2] at ht
      rw [if_neg hne, show fuel + (n + 1) = fuel + n + 1 by omega, ih (offset + chunk) b' (by omega) (by omega) (by omega) fuel, Out.ok_bind, Out.pure_eq, ht, ← escText_append]
      congr 2
      by_cases hend : offset + chunk = data.length
      · rw [List.drop_eq_nil_of_le (by omega : data.length ≤ offset + chunk)]
        rw [List.take_of_length_le (by simp; omega)]
        simp [text64]
      · have h30 : chunk % 3 = 0 := by omega
        rw [← List.drop_drop, ← text64_append _ _ (by simp; omega)]
        rw [List.take_append_drop]

/-- `XBT_ToXMLStream` prints the escaped text of a value, whatever its buffer contains -/
theorem xmlLoop_text {gm : Gm} {flt : List UInt8 → CStr} {d : Data} {s : CStr} (h : valueText gm flt d = some s) (ht : d.type = STRING → (cPrefix d.bytes).length ≠ d.bytes.length)
    {b : CStr} (hb : b.length = 4097) : ∃ n, ∀ fuel, n ≤ fuel → xmlLoop gm flt d fuel 0 b = .ok (escText s) := by
  obtain ⟨t, bytes⟩ := d
  unfold valueText at h
  simp only at h ht
  by_cases h1 : t = STRING
  · subst h1
    rw [if_pos rfl] at h
    injection h with h
    refine ⟨s.length + 1, fun fuel hf => ?_⟩
    obtain ⟨k, rfl⟩ : ∃ k, fuel = k + s.length + 1 := ⟨fuel - s.length - 1, by omega⟩
    exact xmlLoop_str (ht rfl) h.symm s.length 0 b hb (by omega) k
  rw [if_neg h1] at h
  by_cases h2 : t = BLOB
  · subst h2
    rw [if_pos rfl] at h
    injection h with h
    refine ⟨(bytes.drop 4).length + 1, fun fuel hf => ?_⟩
    obtain ⟨k, rfl⟩ : ∃ k, fuel = k + (bytes.drop 4).length + 1 := ⟨fuel - (bytes.drop 4).length - 1, by omega⟩
    have := xmlLoop_blob (gm := gm) (flt := flt) (bytes := bytes) (bytes.drop 4).length 0 b hb (by omega) (Or.inl rfl) k
    rw [this, List.drop_zero, h]
  rw [if_neg h2] at h
  by_cases h3 : t = HEX ∨ t = BLOB_STRING
  · rw [if_pos h3] at h; cases h
  rw [if_neg h3] at h
  simp only [not_or] at h3
  cases hc : chunkText gm flt t bytes with
  | fail => rw [hc] at h; cases h
  | ub => rw [hc] at h; cases h
  | ok s' =>
    rw [hc] at h
    injection h with h
    subst h
    by_cases hN : t = NULL
    · subst hN
      have e1 : s' = [] := by simpa [chunkText] using hc.symm
      subst e1
      refine ⟨1, fun fuel hf => ?_⟩
      obtain ⟨k, rfl⟩ : ∃ k, fuel = k + 1 := ⟨fuel - 1, by omega⟩
      rw [xmlLoop]
      rfl
    · have key : ∀ b, (∃ b', chunkOnce gm flt ⟨t, bytes⟩ 0 b = .ok (s'.length, 4, b') ∧ b'.take s'.length = s') ∧ ∃ c, chunkOnce gm flt ⟨t, bytes⟩ 4 b = .ok (0, c) := by
        intro b
        by_cases hi : t = INT64
        · subst hi
          have hc : printInt64Chunk (rdI64 bytes) = .ok s' := hc
          unfold chunkOnce
          simp only [hc, Out.ok_bind]
          by_cases hz : rdI64 bytes = 0 ∨ rdI64 bytes = -576460752303423488
          · simp only [if_pos hz]
            exact ⟨⟨_, rfl, put_take _ _ _⟩, _, rfl⟩
          · simp only [if_neg hz]
            exact ⟨⟨_, rfl, put_take' _ _⟩, _, rfl⟩
        · by_cases hu : t = UINT64
          · subst hu
            have hc : (Out.ok (printUInt64Chunk (rdU64 bytes)) : Out CStr) = .ok s' := hc
            injection hc with hc
            unfold chunkOnce
            simp only [hc]
            by_cases hz : rdU64 bytes = 0
            · simp only [if_pos hz]
              exact ⟨⟨_, rfl, put_take _ _ _⟩, _, rfl⟩
            · simp only [if_neg hz]
              exact ⟨⟨_, rfl, put_take' _ _⟩, _, rfl⟩
          · have : ∀ offset, chunkOnce gm flt ⟨t, bytes⟩ offset b =
                if offset > 0 then .ok (0, offset, bufPut b (b.length - 1) ['\x00']) else .ok (s'.length, 4, bufPut (bufPut b (b.length - 1) ['\x00']) 0 (s' ++ ['\x00'])) := by
              intro offset
              cases t <;> first
                | contradiction
                | (simp [chunkText] at hc; done)
                | (exact absurd rfl h3.1)
                | (exact absurd rfl h3.2)
                | (unfold chunkOnce; simp only; rw [hc]; rfl)
            rw [this, this]
            exact ⟨⟨_, rfl, put_take _ _ _⟩, _, rfl⟩
      refine ⟨2, fun fuel hf => ?_⟩
      obtain ⟨k, rfl⟩ : ∃ k, fuel = k + 2 := ⟨fuel - 2, by omega⟩
      obtain ⟨⟨b', c0, c1⟩, -⟩ := key b
      exact xmlLoop_once c0 c1 (fun b => (key b).2) k

end BX
