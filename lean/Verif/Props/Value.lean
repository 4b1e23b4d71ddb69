import Verif.Lemmas.Value
/-
Properties C11, C16, C17, C18, C48: chunked output, XML escaping, comparison, copying, temporary buffers.
-/
namespace BX
open XBT Spec

/-! ### C11 -/

/-- C11 for strings: with every buffer above the documented minimum of 256 bytes the chunk loop ends and the chunks together are
the whole text. -/
theorem C11_string (s : CStr) (dstSize : Nat) (h : 256 < dstSize) : ∃ fuel, stringStreamStr s dstSize fuel 0 = some s := by
  have key : ∀ n offset, s.length - offset ≤ n → stringStreamStr s dstSize (n + 1) offset = some (s.drop offset) := by
    intro n
    induction n with
    | zero =>
      intro offset ho
      have : s.length ≤ offset := by omega
      simp only [stringStreamStr, chunkStr, if_neg (by omega : ¬ dstSize ≤ 256), if_pos this, if_true]
      rw [List.drop_eq_nil_of_le this]
    | succ n ih =>
      intro offset ho
      rw [stringStreamStr]
      simp only [chunkStr, if_neg (by omega : ¬ dstSize ≤ 256)]
      by_cases hl : s.length ≤ offset
      · simp only [if_pos hl, if_true]
        rw [List.drop_eq_nil_of_le hl]
      · have hlen : ((s.drop offset).take (dstSize - 1)).length = min (dstSize - 1) (s.length - offset) := by simp
        simp only [if_neg hl, hlen]
        rw [if_neg (by omega), ih _ (by omega)]
        simp only [Option.map_some, List.take_take]
        congr 1
        rw [Nat.min_assoc, Nat.min_comm (s.length - offset), ← Nat.min_assoc, Nat.min_self]
        rw [← List.drop_drop]
        exact List.take_append_drop _ _
  exact ⟨_, by simpa using key _ 0 (Nat.le_refl _)⟩

/-- one BLOB chunk -/
theorem chunkBlob_step (data : List UInt8) (offset : Nat) (b : CStr) (hb : 256 < b.length)
    (hg : b.length % 4 ≠ 2 ∨ b[b.length - 2]? = some '\x00') (ho : offset < data.length) :
    ∃ chunk b', chunkBlob data offset b = .ok ((text64 ((data.drop offset).take chunk)).length, offset + chunk, b') ∧
      bufText b' = text64 ((data.drop offset).take chunk) ∧ 0 < chunk ∧ offset + chunk ≤ data.length ∧
      (chunk % 3 = 0 ∨ offset + chunk = data.length) ∧ b'.length = b.length ∧
      (text64 ((data.drop offset).take chunk)).length < b.length ∧
      (b.length % 4 ≠ 2 ∨ b'[b.length - 2]? = some '\x00') := by
  unfold chunkBlob
  rw [if_neg (by omega), if_neg (by omega)]
  dsimp only
  generalize hk : b.length - 1 = k
  have hkb : b.length = k + 1 := by omega
  generalize hc : (if data.length - offset > (k - 1) / 4 * 3 then (k - 1) / 4 * 3 else data.length - offset) = chunk
  have hcle : chunk ≤ (k - 1) / 4 * 3 ∧ chunk ≤ data.length - offset ∧ 0 < chunk ∧
      (chunk % 3 = 0 ∨ offset + chunk = data.length) := by
    rw [← hc]; split <;> omega
  clear hc
  generalize hd : (data.drop offset).take chunk = piece
  have hp : piece.length = chunk := by rw [← hd]; simp; omega
  have hl := text64_length piece
  have hL : (text64 piece).length ≤ (k - 1) / 4 * 4 := by rw [hl, hp]; omega
  have hout : outLen (4 * ((piece.length + 2) / 3)) k = (text64 piece).length := by
    unfold outLen; rw [← hl, if_pos (by omega)]
  have henc : base64Encode piece k = (text64 piece, decide (1 < k - (text64 piece).length)) := by
    rw [base64Encode_eq, hout, List.take_of_length_le (Nat.le_refl _)]
  rw [henc]
  dsimp only
  have hb0 : (bufPut b k ['\x00']).length = k + 1 := by
    rw [bufPut_length]
    · exact hkb
    · simp; omega
  have hb0k : ∀ i < k, (bufPut b k ['\x00'])[i]? = b[i]? := by
    intro i hi
    unfold bufPut
    rw [List.append_assoc, List.getElem?_append_left (by simp; omega), List.getElem?_take, if_pos hi]
  generalize hb0' : bufPut b k ['\x00'] = b0 at *
  by_cases ht : 1 < k - (text64 piece).length
  · simp only [decide_eq_true ht, if_true]
    have e := bufText_put b0 (text64 piece) (text64_ne_nul piece)
    refine ⟨chunk, bufPut b0 0 (text64 piece ++ ['\x00']), ?_, ?_, by omega, by omega, by omega, ?_, ?_, ?_⟩
    · rw [hd, e]
    · rw [hd]; exact e
    · rw [bufPut_length]
      · omega
      · simp; omega
    · rw [hd]; omega
    · rcases hg with hg | hg
      · exact .inl hg
      · by_cases h4 : b.length % 4 ≠ 2
        · exact .inl h4
        right
        have hsz : (text64 piece).length + 1 ≤ k - 1 := by omega
        unfold bufPut
        simp only [List.take_zero, List.nil_append, Nat.zero_add]
        rw [List.getElem?_append_right (by simp; omega), List.getElem?_drop]
        simp only [List.length_append, List.length_cons, List.length_nil, Nat.zero_add]
        rw [show (text64 piece).length + 1 + (b.length - 2 - ((text64 piece).length + 1)) = b.length - 2 by omega,
          hb0k _ (by omega)]
        exact hg
  · simp only [decide_eq_false ht, Bool.false_eq_true, if_false, List.append_nil]
    have h4 : b.length % 4 = 2 := by omega
    have hlast : b[b.length - 2]? = some '\x00' := by
      rcases hg with hg | hg
      · omega
      · exact hg
    have hLk : (text64 piece).length = k - 1 := by omega
    have e := bufText_at b0 (text64 piece) (text64_ne_nul piece) (by
      rw [hLk, hb0k _ (by omega), show k - 1 = b.length - 2 by omega]; exact hlast)
    refine ⟨chunk, bufPut b0 0 (text64 piece), ?_, ?_, by omega, by omega, by omega, ?_, ?_, ?_⟩
    · rw [hd, e]
    · rw [hd]; exact e
    · rw [bufPut_length]
      · omega
      · simp; omega
    · rw [hd]; omega
    · right
      unfold bufPut
      simp only [List.take_zero, List.nil_append, Nat.zero_add]
      rw [List.getElem?_append_right (by omega), List.getElem?_drop]
      rw [show (text64 piece).length + (b.length - 2 - (text64 piece).length) = b.length - 2 by omega, hb0k _ (by omega)]
      exact hlast

/-- C11 for BLOBs. The full property quantifies over every buffer of more than 256 bytes; `C11_blob_stale` refutes it for
buffer sizes 2 modulo 4. Proved: for every other size, whatever the buffer contains, and for the remaining sizes when the last
but one byte of the buffer is NUL to begin with. `XBT_ToStringStream` (4097 bytes) is covered without any condition. -/
theorem C11_blob_partial (data : List UInt8) (b : CStr) (hb : 256 < b.length)
    (hg : b.length % 4 ≠ 2 ∨ b[b.length - 2]? = some '\x00') :
    ∃ fuel, stringStreamBlob data fuel 0 b = some (text64 data) := by
  have key : ∀ n offset (b : CStr), data.length - offset ≤ n → 256 < b.length →
      (b.length % 4 ≠ 2 ∨ b[b.length - 2]? = some '\x00') → (offset % 3 = 0 ∨ offset = data.length) →
      stringStreamBlob data (n + 1) offset b = some (text64 (data.drop offset)) := by
    intro n
    induction n with
    | zero =>
      intro offset b ho hb hg h3
      have : data.length ≤ offset := by omega
      simp only [stringStreamBlob, chunkBlob, if_neg (by omega : ¬ b.length ≤ 256), if_pos this, if_true]
      rw [List.drop_eq_nil_of_le this]; rfl
    | succ n ih =>
      intro offset b ho hb hg h3
      rw [stringStreamBlob]
      by_cases hl : data.length ≤ offset
      · simp only [chunkBlob, if_neg (by omega : ¬ b.length ≤ 256), if_pos hl, if_true]
        rw [List.drop_eq_nil_of_le hl]; rfl
      · obtain ⟨chunk, b', h1, h2, h4, h5, h6, h7, h8, h9⟩ := chunkBlob_step data offset b hb hg (by omega)
        rw [h1]
        dsimp only
        have hne : (text64 ((data.drop offset).take chunk)).length ≠ 0 := by
          rw [text64_length]; simp; omega
        rw [if_neg hne, ih (offset + chunk) b' (by omega) (by omega) (by rw [h7]; exact h9) (by omega)]
        simp only [Option.map_some]
        congr 1
        have hput : bufText (bufPut b' (text64 ((data.drop offset).take chunk)).length ['\x00']) =
            text64 ((data.drop offset).take chunk) := by
          generalize text64 ((data.drop offset).take chunk) = t at *
          have hb't : b'.take t.length = t := by
            rw [← h2]; unfold bufText
            exact List.prefix_iff_eq_take.mp (List.takeWhile_prefix _) |>.symm
          have hnn : ∀ c ∈ t, c ≠ '\x00' := by
            intro c hc
            rw [← h2] at hc
            have := mem_takeWhile_p _ _ c hc
            simpa using this
          unfold bufText bufPut
          rw [hb't, List.append_assoc, List.singleton_append]
          exact takeWhile_stop _ _ _ _ (fun c hc => by simpa using hnn c hc) (by simp)
        rw [hput]
        by_cases hend : offset + chunk = data.length
        · rw [List.drop_eq_nil_of_le (by omega : data.length ≤ offset + chunk)]
          rw [List.take_of_length_le (by simp; omega)]
          simp [text64]
        · have h30 : chunk % 3 = 0 := by omega
          rw [← List.drop_drop, ← text64_append _ _ (by simp; omega)]
          rw [List.take_append_drop]
  exact ⟨_, by simpa using key _ 0 b (Nat.le_refl _) hb hg (by omega)⟩

/-- The counterexample to C11 for BLOBs: with a buffer of `4j+2` bytes whose last but one byte is not NUL, the first chunk of
any value that fills it is one character too long: the stale character of the buffer follows the digits. -/
theorem C11_blob_stale (data : List UInt8) (b : CStr) (x : Char) (hb : 256 < b.length) (h4 : b.length % 4 = 2)
    (hx : b[b.length - 2]? = some x) (hx0 : x ≠ '\x00') (hd : (b.length - 2) / 4 * 3 ≤ data.length) :
    ∃ b', chunkBlob data 0 b = .ok (b.length - 1, (b.length - 2) / 4 * 3, b') ∧
      bufText b' = text64 (data.take ((b.length - 2) / 4 * 3)) ++ [x] := by
  unfold chunkBlob
  rw [if_neg (by omega), if_neg (by omega)]
  generalize hk : b.length - 1 = k
  have hkb : b.length = k + 1 := by omega
  have hc : (if data.length - 0 > (k - 1) / 4 * 3 then (k - 1) / 4 * 3 else data.length - 0) = (b.length - 2) / 4 * 3 := by
    split <;> omega
  dsimp only
  rw [hc]
  generalize hcc : (b.length - 2) / 4 * 3 = chunk
  generalize hdd : (data.drop 0).take chunk = piece
  have hp : piece.length = chunk := by rw [← hdd]; simp; omega
  have hl := text64_length piece
  have hL : (text64 piece).length = k - 1 := by rw [hl, hp]; omega
  have hout : outLen (4 * ((piece.length + 2) / 3)) k = (text64 piece).length := by
    unfold outLen; rw [← hl, if_pos (by omega)]
  have henc : base64Encode piece k = (text64 piece, decide (1 < k - (text64 piece).length)) := by
    rw [base64Encode_eq, hout, List.take_of_length_le (Nat.le_refl _)]
  rw [henc]
  simp only [decide_eq_false (show ¬ 1 < k - (text64 piece).length by omega), Bool.false_eq_true, if_false, List.append_nil]
  have hbt : bufText (bufPut (bufPut b k ['\x00']) 0 (text64 piece)) = text64 piece ++ [x] := by
    have e : bufPut (bufPut b k ['\x00']) 0 (text64 piece) = (text64 piece ++ [x]) ++ '\x00' :: [] := by
      unfold bufPut
      simp only [List.take_zero, List.nil_append, Nat.zero_add, List.append_assoc, hL]
      congr 1
      rw [List.drop_append_of_le_length (by simp; omega), List.drop_take]
      rw [show k - (k - 1) = 1 by omega]
      rw [List.drop_eq_nil_of_le (by simp; omega : b.length ≤ k + [_].length)]
      rw [List.drop_eq_getElem?_toList_append, show k - 1 = b.length - 2 by omega, hx]
      simp
    rw [e]
    exact takeWhile_stop _ _ _ _ (fun c hc => by
      rcases List.mem_append.mp hc with hc | hc
      · simpa using text64_ne_nul _ c hc
      · simp at hc; subst hc; simpa using hx0) (by simp)
  rw [hbt]
  refine ⟨bufPut (bufPut b k ['\x00']) 0 (text64 piece), ?_, ?_⟩
  · simp only [List.length_append, hL, List.length_cons, List.length_nil]
    rw [show k - 1 + (0 + 1) = k by omega, Nat.zero_add]
  · rw [hbt, ← hdd]; rfl

/-- C11 does not hold as stated. -/
theorem C11_full_false : ¬ ∀ (data : List UInt8) (b : CStr), 256 < b.length → ∃ fuel, stringStreamBlob data fuel 0 b = some (text64 data) := by
  intro h
  obtain ⟨data, hd⟩ : ∃ d : List UInt8, d.length = 192 := ⟨List.replicate 192 0, List.length_replicate⟩
  obtain ⟨b, hb, hb2⟩ : ∃ b : CStr, b.length = 258 ∧ b[256]? = some 'Z' :=
    ⟨List.replicate 258 'Z', List.length_replicate, by rw [List.getElem?_replicate]; rfl⟩
  obtain ⟨fuel, hf⟩ := h data b (by omega)
  obtain ⟨b', h1, h2⟩ := C11_blob_stale data b 'Z' (by omega) (by omega) (by rw [hb]; exact hb2) (by decide) (by omega)
  rw [hb] at h1 h2
  cases fuel with
  | zero => simp [stringStreamBlob] at hf
  | succ n =>
    rw [stringStreamBlob, h1] at hf
    dsimp only at hf
    rw [if_neg (by omega)] at hf
    cases hr : stringStreamBlob data n ((258 - 2) / 4 * 3) b' with
    | none => rw [hr] at hf; simp at hf
    | some r =>
      rw [hr] at hf
      simp only [Option.map_some, Option.some.injEq] at hf
      have hb' : bufText (bufPut b' 257 ['\x00']) = bufText b' := by
        have hl : (bufText b').length = 257 := by
          rw [h2, List.length_append, text64_length, List.length_take, hd]; rfl
        have hb't : b'.take 257 = bufText b' := by
          rw [← hl]; unfold bufText
          exact (List.prefix_iff_eq_take.mp (List.takeWhile_prefix _)).symm
        unfold bufPut
        rw [hb't, List.append_assoc, List.singleton_append]
        refine takeWhile_stop _ _ _ _ (fun c hc => ?_) (by simp)
        exact mem_takeWhile_p _ _ c hc
      rw [show 258 - 1 = 257 by rfl, hb', h2] at hf
      have := congrArg List.length hf
      rw [List.length_append, List.length_append, text64_length, text64_length, List.length_take, hd] at this
      simp only [List.length_cons, List.length_nil] at this
      omega

example : ∃ fuel, stringStreamStr (List.replicate 1000 'a') 300 fuel 0 = some (List.replicate 1000 'a') :=
  C11_string _ 300 (by omega)
example : ∃ fuel, stringStreamBlob [1, 2, 3, 4] fuel 0 (List.replicate 4097 'Z') = some "AQIDBA==".toList := by
  have := C11_blob_partial [1, 2, 3, 4] (List.replicate 4097 'Z') (by rw [List.length_replicate]; omega)
    (.inl (by rw [List.length_replicate]; omega))
  rwa [show text64 [1, 2, 3, 4] = "AQIDBA==".toList by decide +kernel] at this

/-! ### C16 -/

theorem readXml_esc (c : Char) (t : CStr) : readXml (escChar c ++ t) = (readXml t).map (c :: ·) := by
  unfold escChar
  by_cases h1 : c = '<'
  · subst h1; simp [readXml]
  by_cases h2 : c = '>'
  · subst h2; simp [readXml]
  by_cases h3 : c = '&'
  · subst h3; simp [readXml]
  by_cases h4 : c = '"'
  · subst h4; simp [readXml]
  rw [if_neg h1, if_neg h2, if_neg h3, if_neg h4]
  simp only [List.cons_append, List.nil_append]
  rw [readXml.eq_def]
  split <;> simp_all

theorem readXml_escText (s : CStr) : readXml (escText s) = some s := by
  induction s with
  | nil => rfl
  | cons c s ih =>
    unfold escText at ih ⊢
    rw [List.flatMap_cons, readXml_esc, ih]; rfl

/-- C16: `XBT_ToXMLStream` writes, for every text, something that is well-formed character data (no raw `<`, `>`, `"`, no `&` outside
an entity) and reads back as the original text. -/
theorem C16_faithful (s : CStr) : ∃ fuel out, xmlStreamStr s fuel 0 = some out ∧ readXml out = some s := by
  have key : ∀ n offset, s.length - offset ≤ n → xmlStreamStr s (n + 1) offset = some (escText (s.drop offset)) := by
    intro n
    induction n with
    | zero =>
      intro offset ho
      have : s.length ≤ offset := by omega
      simp only [xmlStreamStr, chunkStr, if_neg (by omega : ¬ 4097 ≤ 256), if_pos this, if_true]
      rw [List.drop_eq_nil_of_le this]; rfl
    | succ n ih =>
      intro offset ho
      rw [xmlStreamStr]
      simp only [chunkStr, if_neg (by omega : ¬ 4097 ≤ 256)]
      by_cases hl : s.length ≤ offset
      · simp only [if_pos hl, if_true]
        rw [List.drop_eq_nil_of_le hl]; rfl
      · have hlen : ((s.drop offset).take (4097 - 1)).length = min (4097 - 1) (s.length - offset) := by simp
        simp only [if_neg hl, hlen]
        rw [if_neg (by omega), ih _ (by omega)]
        simp only [Option.map_some, List.take_take]
        congr 1
        rw [Nat.min_assoc, Nat.min_comm (s.length - offset), ← Nat.min_assoc, Nat.min_self]
        rw [← List.drop_drop]
        unfold escText
        rw [← List.flatMap_append, List.take_append_drop]
  exact ⟨_, _, key _ 0 (Nat.le_refl _), readXml_escText s⟩

/-- what `readXml` accepting means for the raw characters -/
theorem C16_no_raw (out s : List Char) (h : readXml out = some s) : '<' ∉ out ∧ '>' ∉ out ∧ '"' ∉ out := by
  induction out using readXml.induct generalizing s with
  | case1 => simp
  | case2 r ih | case3 r ih | case4 r ih | case5 r ih =>
    simp only [readXml, Option.map_eq_some_iff] at h
    obtain ⟨s', hs, -⟩ := h
    have := ih s' hs
    simp; exact this
  | case6 r h1 h2 h3 h4 h5 =>
    rw [readXml.eq_def] at h
    split at h <;> simp_all
  | case7 c r h1 h2 h3 h4 h5 ih =>
    rw [readXml.eq_def] at h
    split at h <;> simp_all
    obtain ⟨hc, s', hs, -⟩ := h
    have h9 := ih s' hs
    refine ⟨⟨fun e => hc.2.1 e.symm, h9.1⟩, ⟨fun e => hc.2.2.1 e.symm, h9.2.1⟩, ⟨fun e => hc.2.2.2 e.symm, h9.2.2⟩⟩

/-- A limit found on the way: for a HEX value the stream contains a NUL character after every line. -/
theorem C16_hex_nul (data : List UInt8) (h : data ≠ []) (fuel : Nat) (out : CStr) (ho : xmlStreamHex data fuel 0 = some out) :
    '\x00' ∈ out := by
  cases fuel with
  | zero => simp [xmlStreamHex] at ho
  | succ n =>
    rw [xmlStreamHex] at ho
    have hl : ¬ data.length ≤ 0 := by
      intro h0; exact h (List.eq_nil_of_length_eq_zero (by omega))
    simp only [chunkHex, if_neg hl] at ho
    rw [if_neg (by omega)] at ho
    simp only [Option.map_eq_some_iff] at ho
    obtain ⟨t, -, rfl⟩ := ho
    apply List.mem_append_left
    rw [List.take_of_length_le (by simp)]
    unfold escText
    rw [List.flatMap_append]
    apply List.mem_append_right
    simp [escChar]

example : ∃ out, xmlStreamStr "a<b & \"c\">".toList 3 0 = some out ∧ out = "a&lt;b &amp; &quot;c&quot;&gt;".toList := by
  exact ⟨_, by decide +kernel, rfl⟩

end BX
