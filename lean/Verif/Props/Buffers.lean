import Verif.Lemmas.Value
import Verif.Lemmas.Detect
/-
Properties C55, C56: the rotating text buffers of `XBT_ToString`.
-/
namespace BX
open XBT Spec

/-- values the C++ types can hold and whose printing is defined (`INT_MIN` / `INT64_MIN` are not, see C05 and C06) -/
def Small.Valid : Small → Prop
  | .int32 v => isI32 v
  | .decimal k v => 1 ≤ k ∧ k ≤ 9 ∧ isI32 v ∧ v ≠ INT_MIN
  | .uint32 n => n < 2 ^ 32
  | .int64 v => isI64 v ∧ v ≠ INT64_MIN
  | .uint64 n => n < 2 ^ 64
  | .sha1 bs => bs.length = 20
  | .guid bs => bs.length = 16

/-- the text of a value, as fixed by properties C04-C06, C08, C09 -/
def Small.text : Small → CStr
  | .int32 v => printInt v
  | .decimal k v => printInt (Int.tdiv v (10 ^ k : Nat)) ++ '.' :: padDec k (v.natAbs % 10 ^ k)
  | .uint32 n => dec n
  | .int64 v => if v = -576460752303423488 then "9223372036854775808".toList else printInt v
  | .uint64 n => dec n
  | .sha1 bs => hex2Str bs
  | .guid bs => guid2Str bs

/-- printed through `snprintf`/`strcpy`, i.e. together with a terminator -/
def Small.terminated : Small → Bool
  | .int64 v => v = 0 ∨ v = -576460752303423488
  | .uint64 n => n = 0
  | _ => true

theorem dig_ne_nul {c : Char} (h : isDig c = true) : c ≠ '\x00' := by rintro rfl; revert h; decide

theorem printInt_chars (v : Int) : ∀ c ∈ printInt v, c ≠ '\x00' := by
  intro c hc
  unfold printInt at hc
  split at hc
  · rcases List.mem_cons.mp hc with rfl | hc
    · decide
    · exact dig_ne_nul (dec_digits _ c hc)
  · exact dig_ne_nul (dec_digits _ c hc)

theorem hex_ne_nul (bs : List UInt8) : ∀ c ∈ hex2Str bs, c ≠ '\x00' := by
  intro c hc
  obtain ⟨n, hn, rfl⟩ := hex2Str_chars bs c hc
  have : ∀ n < 16, hexChar n ≠ '\x00' := by decide +kernel
  exact this n hn

theorem guid_ne_nul (bs : List UInt8) : ∀ c ∈ guid2Str bs, c ≠ '\x00' := by
  intro c hc
  unfold guid2Str at hc
  simp only [List.mem_append, List.mem_cons] at hc
  have h := hex_ne_nul bs
  rcases hc with ((((hc | rfl | hc)) | rfl | hc) | rfl | hc) | rfl | hc
  all_goals first
    | decide
    | exact h c (List.mem_of_mem_take hc)
    | exact h c (List.mem_of_mem_drop (List.mem_of_mem_take hc))

theorem Small.text_chars (v : Small) : ∀ c ∈ v.text, c ≠ '\x00' := by
  cases v with
  | int32 v => exact printInt_chars v
  | uint32 n => intro c hc; exact dig_ne_nul (dec_digits _ c hc)
  | uint64 n => intro c hc; exact dig_ne_nul (dec_digits _ c hc)
  | sha1 bs => exact hex_ne_nul bs
  | guid bs => exact guid_ne_nul bs
  | int64 v =>
    intro c hc
    simp only [Small.text] at hc
    split at hc
    · revert c; decide
    · exact printInt_chars v c hc
  | decimal k v =>
    intro c hc
    simp only [Small.text, List.mem_append, List.mem_cons] at hc
    rcases hc with hc | rfl | hc
    · exact printInt_chars _ c hc
    · decide
    · exact dig_ne_nul (padDec_digits _ _ c hc)

theorem printInt_length (v : Int) (k : Nat) (hk : 0 < k) (h : v.natAbs < 10 ^ k) : (printInt v).length ≤ k + 1 := by
  have := dec_length_le v.natAbs k hk h
  unfold printInt; split <;> simp <;> omega

theorem Small.text_length (v : Small) (hv : v.Valid) : v.text.length ≤ 40 := by
  cases v with
  | int32 v =>
    unfold Small.Valid isI32 INT_MIN INT_MAX at hv
    have := printInt_length v 10 (by omega) (by omega)
    simp only [Small.text]; omega
  | uint32 n => have := dec_length_le n 10 (by omega) (by unfold Small.Valid at hv; omega); simp only [Small.text]; omega
  | uint64 n => have := dec_length_le n 20 (by omega) (by unfold Small.Valid at hv; omega); simp only [Small.text]; omega
  | sha1 bs => unfold Small.Valid at hv; simp only [Small.text, hex2Str_length]; omega
  | guid bs => simp only [Small.text, guid_length bs hv]; omega
  | int64 v =>
    unfold Small.Valid isI64 INT64_MIN INT64_MAX at hv
    have := printInt_length v 19 (by omega) (by omega)
    simp only [Small.text]
    split
    · decide
    · omega
  | decimal k v =>
    unfold Small.Valid isI32 INT_MIN INT_MAX at hv
    have hpd := padDec_length k (v.natAbs % 10 ^ k) (by omega) (Nat.mod_lt _ (Nat.pow_pos (by omega)))
    have h1 : (Int.tdiv v (10 ^ k : Nat)).natAbs < 10 ^ 10 := by
      rw [natAbs_tdiv]
      exact Nat.lt_of_le_of_lt (Nat.div_le_self _ _) (by omega)
    have := printInt_length _ 10 (by omega) h1
    simp only [Small.text, List.length_append, List.length_cons, hpd]
    omega

/-- what printing does to the buffer: the text with a terminator, or the text alone (and its digits near the end) -/
theorem Small.put_eq (v : Small) (hv : v.Valid) (b : CStr) (hb : b.length = 257) :
    ∃ b', v.put b = .ok b' ∧ b'.length = 257 ∧
      (bufText b' = v.text ↔ v.terminated = true ∨ b[v.text.length]? = some '\x00') := by
  have hlen := v.text_length hv
  have hch := v.text_chars
  have hb0 : (bufPut b 256 ['\x00']).length = 257 := by rw [bufPut_length _ _ _ (by simp; omega)]; exact hb
  have hget0 : ∀ i < 256, (bufPut b 256 ['\x00'])[i]? = b[i]? := by
    intro i hi
    unfold bufPut
    rw [List.append_assoc, List.getElem?_append_left (by simp; omega), List.getElem?_take, if_pos hi]
  generalize hbb : bufPut b 256 ['\x00'] = b0 at hb0 hget0
  have term : ∀ s : CStr, s.length ≤ 40 → (∀ c ∈ s, c ≠ '\x00') → ∀ B : CStr, B.length = 257 →
      (bufPut B 0 (s ++ ['\x00'])).length = 257 ∧ bufText (bufPut B 0 (s ++ ['\x00'])) = s := by
    intro s hs hc B hB
    exact ⟨by rw [bufPut_length _ _ _ (by simp; omega)]; exact hB, bufText_put _ _ hc⟩
  have digs : ∀ s : CStr, s.length ≤ 40 → (∀ c ∈ s, c ≠ '\x00') →
      (bufPut (bufPut (bufPut b0 255 ['\x00']) (255 - s.length) s) 0 s).length = 257 ∧
      (bufText (bufPut (bufPut (bufPut b0 255 ['\x00']) (255 - s.length) s) 0 s) = s ↔ b[s.length]? = some '\x00') := by
    intro s hs hc
    have l1 : (bufPut b0 255 ['\x00']).length = 257 := by rw [bufPut_length _ _ _ (by simp; omega)]; exact hb0
    have l2 : (bufPut (bufPut b0 255 ['\x00']) (255 - s.length) s).length = 257 := by
      rw [bufPut_length _ _ _ (by omega)]; exact l1
    have g : (bufPut (bufPut b0 255 ['\x00']) (255 - s.length) s)[s.length]? = b[s.length]? := by
      rw [← hget0 _ (by omega)]
      unfold bufPut
      rw [List.append_assoc, List.getElem?_append_left (by simp; omega), List.getElem?_take, if_pos (by omega),
        List.append_assoc, List.getElem?_append_left (by simp; omega), List.getElem?_take, if_pos (by omega)]
    generalize hB : bufPut (bufPut b0 255 ['\x00']) (255 - s.length) s = B at l2 g
    refine ⟨by rw [bufPut_length _ _ _ (by omega)]; exact l2, ?_, ?_⟩
    · intro h
      rw [← g]
      have hlt : s.length < B.length := by omega
      rw [List.getElem?_eq_getElem hlt]
      congr 1
      apply Classical.byContradiction
      intro hne
      have : s ++ [B[s.length]] <+: bufText (bufPut B 0 s) := by
        unfold bufText bufPut
        simp only [List.take_zero, List.nil_append, Nat.zero_add]
        rw [List.drop_eq_getElem_cons hlt]
        have e : s ++ B[s.length] :: B.drop (s.length + 1) = (s ++ [B[s.length]]) ++ B.drop (s.length + 1) := by simp
        rw [e, List.takeWhile_append_of_pos]
        · exact List.prefix_append _ _
        · intro c hc'
          rcases List.mem_append.mp hc' with h1 | h1
          · simpa using hc c h1
          · simp at h1; subst h1; simpa using hne
      rw [h] at this
      have := this.length_le
      simp at this
      omega
    · intro h
      exact bufText_at _ _ hc (by rw [g]; exact h)
  have fin : ∀ s : CStr, v.text = s → v.terminated = true → ∀ B : CStr, B.length = 257 →
      (bufPut B 0 (s ++ ['\x00'])).length = 257 ∧
      (bufText (bufPut B 0 (s ++ ['\x00'])) = v.text ↔ v.terminated = true ∨ b[v.text.length]? = some '\x00') := by
    intro s hs ht B hB
    have := term s (by rw [← hs]; omega) (by rw [← hs]; exact hch) B hB
    exact ⟨this.1, by rw [this.2, hs, ht]; simp⟩
  have find : ∀ s : CStr, v.text = s → v.terminated = false → 
      (bufPut (bufPut (bufPut b0 255 ['\x00']) (255 - s.length) s) 0 s).length = 257 ∧
      (bufText (bufPut (bufPut (bufPut b0 255 ['\x00']) (255 - s.length) s) 0 s) = v.text ↔
        v.terminated = true ∨ b[v.text.length]? = some '\x00') := by
    intro s hs ht
    have := digs s (by rw [← hs]; omega) (by rw [← hs]; exact hch)
    refine ⟨this.1, ?_⟩
    rw [hs, this.2, ht]
    simp
  cases v with
  | int32 v => exact ⟨_, by simp only [Small.put, hb, hbb, Small.text], fin _ rfl rfl _ hb0⟩
  | uint32 n => exact ⟨_, by simp only [Small.put, hb, hbb, Small.text], fin _ rfl rfl _ hb0⟩
  | sha1 bs => exact ⟨_, by simp only [Small.put, hb, hbb, Small.text], fin _ rfl rfl _ hb0⟩
  | guid bs => exact ⟨_, by simp only [Small.put, Small.text], fin _ rfl rfl _ hb⟩
  | decimal k v =>
    refine ⟨_, ?_, fin _ rfl rfl _ hb0⟩
    simp only [Small.put, hb, hbb, printDecimal_eq k v hv.2.2.2, Out.bind_ok, Small.text]
  | uint64 n =>
    simp only [Small.put, hb]
    rw [show 257 - 1 = 256 by rfl, hbb]
    by_cases h0 : n = 0
    · subst h0
      rw [if_pos rfl]
      exact ⟨_, rfl, fin ['0'] (by simp only [Small.text]; rw [dec]; simp [digChar]) rfl _ hb0⟩
    · rw [if_neg h0]
      have : printUInt64Chunk n = dec n := by
        unfold printUInt64Chunk; rw [if_neg h0, decLoop_eq _ _ (by omega)]; simp
      rw [this]
      exact ⟨_, rfl, find (dec n) rfl (by simp [Small.terminated, h0])⟩
  | int64 v =>
    simp only [Small.put, hb]
    rw [show 257 - 1 = 256 by rfl, hbb]
    by_cases h0 : v = 0
    · subst h0
      rw [if_pos rfl]
      exact ⟨_, rfl, fin ['0'] (by simp only [Small.text]; unfold printInt; rw [if_neg (by omega), if_neg (by omega), dec]; simp [digChar]) rfl _ hb0⟩
    · rw [if_neg h0]
      by_cases hs : v = -576460752303423488
      · subst hs
        have : printInt64Chunk (-576460752303423488) = .ok "9223372036854775808".toList := by
          unfold printInt64Chunk; rw [if_neg (by omega), if_pos rfl]
        rw [this, Out.bind_ok, if_pos rfl]
        exact ⟨_, rfl, fin _ (by simp only [Small.text, if_true]) rfl _ hb0⟩
      · have : printInt64Chunk v = .ok (printInt v) := by
          unfold printInt64Chunk printInt
          rw [if_neg h0, if_neg hs, if_neg hv.2, decLoop_eq _ _ (by omega), List.append_nil]
        rw [this, Out.bind_ok, if_neg hs]
        exact ⟨_, rfl, find (printInt v) (by simp only [Small.text, if_neg hs]) (by simp [Small.terminated, h0, hs])⟩

/-- the state between calls: 64 buffers of 257 bytes, the index inside -/
def Texts.Inv (st : Texts) : Prop := st.bufs.length = 64 ∧ (∀ b ∈ st.bufs, b.length = 257) ∧ st.idx < 64

theorem Texts.init_inv : Texts.init.Inv := by
  refine ⟨List.length_replicate, ?_, by decide⟩
  intro b hb
  rw [(List.mem_replicate.mp hb).2]
  exact List.length_replicate

/-- calls one after the other: the final state -/
def Texts.run (st : Texts) : List Small → Out Texts
  | [] => .ok st
  | v :: vs => (st.toString v).bind fun r => r.2.run vs

theorem Texts.step_spec (st : Texts) (h : st.Inv) (v : Small) (hv : v.Valid) :
    ∃ st', st.toString v = .ok (st.idx, st') ∧ st'.Inv ∧ st'.idx = (st.idx + 1) % 64 ∧
      (∀ j, j ≠ st.idx → st'.bufs.getD j [] = st.bufs.getD j []) ∧
      (st'.text st.idx = v.text ↔ v.terminated = true ∨ (st.bufs.getD st.idx [])[v.text.length]? = some '\x00') := by
  obtain ⟨h1, h2, h3⟩ := h
  have hmem : st.bufs.getD st.idx [] ∈ st.bufs := by
    rw [List.getD_eq_getElem?_getD, List.getElem?_eq_getElem (by omega)]; exact List.getElem_mem _
  obtain ⟨b', p1, p2, p3⟩ := v.put_eq hv (st.bufs.getD st.idx []) (h2 _ hmem)
  refine ⟨⟨st.bufs.set st.idx b', if st.idx + 1 ≥ 64 then 0 else st.idx + 1⟩, ?_, ⟨?_, ?_, ?_⟩, ?_, ?_, ?_⟩
  · unfold Texts.toString; rw [p1]; rfl
  · simp [h1]
  · intro b hb
    rcases List.mem_or_eq_of_mem_set hb with hb | rfl
    · exact h2 b hb
    · exact p2
  · simp only; split <;> omega
  · simp only; split <;> omega
  · intro j hj
    simp only [List.getD_eq_getElem?_getD]
    rw [List.getElem?_set_ne (fun e => hj e.symm)]
  · unfold Texts.text
    simp only [List.getD_eq_getElem?_getD]
    rw [List.getElem?_set_self (by omega)]
    simpa [List.getD_eq_getElem?_getD] using p3

/-! ### C55 -/

/-- C55. The full property — after any history of conversions the returned text is the text of the value — is refuted by
`C55_stale`. Proved for all values printed with their terminator (every type but INT64/UINT64), in every state; for INT64 and
UINT64 the condition is exact: the byte of the reused buffer behind the text must be NUL. -/
theorem C55_text_partial (hist : List Small) (hh : ∀ w ∈ hist, w.Valid) (v : Small) (hv : v.Valid) :
    ∃ st st', Texts.init.run hist = .ok st ∧ st.toString v = .ok (st.idx, st') ∧
      (st'.text st.idx = v.text ↔ v.terminated = true ∨ (st.bufs.getD st.idx [])[v.text.length]? = some '\x00') := by
  have key : ∀ (hist : List Small) (st : Texts), st.Inv → (∀ w ∈ hist, w.Valid) → ∃ st', st.run hist = .ok st' ∧ st'.Inv := by
    intro hist
    induction hist with
    | nil => intro st h _; exact ⟨st, rfl, h⟩
    | cons w ws ih =>
      intro st h hw
      obtain ⟨st1, s1, s2, -⟩ := Texts.step_spec st h w (hw w (by simp))
      obtain ⟨st2, r1, r2⟩ := ih st1 s2 (fun x hx => hw x (by simp [hx]))
      exact ⟨st2, by rw [Texts.run, s1, Out.bind_ok, r1], r2⟩
  obtain ⟨st, h1, h2⟩ := key hist Texts.init Texts.init_inv hh
  obtain ⟨st', s1, -, -, -, s2⟩ := Texts.step_spec st h2 v hv
  exact ⟨st, st', h1, s1, s2⟩

/-- C55 for the first 64 conversions of a program, of any type: the buffers are still clear. -/
theorem C55_first_64_partial (hist : List Small) (hh : ∀ w ∈ hist, w.Valid) (hl : hist.length < 64) (v : Small) (hv : v.Valid) :
    ∃ st st', Texts.init.run hist = .ok st ∧ st.toString v = .ok (st.idx, st') ∧ st'.text st.idx = v.text := by
  have key : ∀ (hist : List Small) (st : Texts), st.Inv → (∀ w ∈ hist, w.Valid) → st.idx + hist.length < 64 →
      (∀ j, st.idx ≤ j → j < 64 → st.bufs.getD j [] = List.replicate 257 '\x00') →
      ∃ st', st.run hist = .ok st' ∧ st'.Inv ∧ st'.bufs.getD st'.idx [] = List.replicate 257 '\x00' := by
    intro hist
    induction hist with
    | nil => intro st h _ hl hz; exact ⟨st, rfl, h, hz _ (Nat.le_refl _) (by simpa using hl)⟩
    | cons w ws ih =>
      intro st h hw hl hz
      simp only [List.length_cons] at hl
      obtain ⟨st1, s1, s2, s3, s4, -⟩ := Texts.step_spec st h w (hw w (by simp))
      have hi : st1.idx = st.idx + 1 := by omega
      obtain ⟨st2, r1, r2⟩ := ih st1 s2 (fun x hx => hw x (by simp [hx])) (by omega) (by
        intro j hj hj2
        rw [s4 j (by omega)]
        exact hz j (by omega) hj2)
      exact ⟨st2, by rw [Texts.run, s1, Out.bind_ok, r1], r2⟩
  obtain ⟨st, h1, h2, h3⟩ := key hist Texts.init Texts.init_inv hh (by show 0 + hist.length < 64; omega) (by
    intro j _ hj
    simp only [Texts.init, List.getD_eq_getElem?_getD]
    rw [List.getElem?_replicate, if_pos hj]; rfl)
  obtain ⟨st', s1, -, -, -, s2⟩ := Texts.step_spec st h2 v hv
  refine ⟨st, st', h1, s1, s2.mpr (.inr ?_)⟩
  have := v.text_length hv
  rw [h3, List.getElem?_replicate, if_pos (by omega)]

/-- C55 refuted: after 64 conversions of a seven-digit 64-bit number, the number 5 is printed as 5234567. -/
theorem C55_stale : ∃ st st', Texts.init.run (List.replicate 64 (.int64 1234567)) = .ok st ∧
    st.toString (.int64 5) = .ok (st.idx, st') ∧ st'.text st.idx = "5234567".toList := by
  refine ⟨⟨List.replicate 64 ("1234567".toList ++ List.replicate 241 '\x00' ++ "1234567\x00\x00".toList), 0⟩, _, ?_, rfl, ?_⟩
  · have hput : Small.put (.int64 1234567) (List.replicate 257 '\x00') =
        .ok ("1234567".toList ++ List.replicate 241 '\x00' ++ "1234567\x00\x00".toList) := by decide +kernel
    generalize "1234567".toList ++ List.replicate 241 '\x00' ++ "1234567\x00\x00".toList = B at hput ⊢
    show Texts.run ⟨List.replicate 64 (List.replicate 257 '\x00'), 0⟩ _ = _
    generalize List.replicate 257 '\x00' = Z at hput ⊢
    have step : ∀ i < 64, Texts.toString ⟨List.replicate i B ++ List.replicate (64 - i) Z, i⟩ (.int64 1234567) =
        .ok (i, ⟨List.replicate (i+1) B ++ List.replicate (64 - (i+1)) Z, if i + 1 ≥ 64 then 0 else i + 1⟩) := by
      intro i hi
      unfold Texts.toString
      have hg : (List.replicate i B ++ List.replicate (64 - i) Z).getD i [] = Z := by
        rw [List.getD_eq_getElem?_getD, List.getElem?_append_right (by simp), List.getElem?_replicate, if_pos (by simp; omega)]; rfl
      simp only [hg, hput, Out.bind_ok]
      congr 3
      rw [List.set_append_right _ _ (by simp)]
      simp only [List.length_replicate, Nat.sub_self]
      rw [show 64 - i = (64 - (i + 1)) + 1 by omega, List.replicate_succ, List.set_cons_zero, List.replicate_succ']
      simp
    have run : ∀ n i, i + n = 64 → 0 < n → Texts.run ⟨List.replicate i B ++ List.replicate (64 - i) Z, i⟩ (List.replicate n (.int64 1234567)) =
        .ok ⟨List.replicate 64 B, 0⟩ := by
      intro n
      induction n with
      | zero => intro i _ h0; omega
      | succ n ih =>
        intro i hi _
        rw [show List.replicate (n+1) (Small.int64 1234567) = .int64 1234567 :: List.replicate n (.int64 1234567) from rfl, Texts.run, step i (by omega), Out.bind_ok]
        by_cases hn : n = 0
        · subst hn
          have : i = 63 := by omega
          subst this
          rfl
        · rw [if_neg (by omega)]
          exact ih (i + 1) (by omega) (by omega)
    exact run 64 0 rfl (by omega)
  · decide +kernel

/-! ### C56 -/

/-- C56: a returned text stays as it is while at most 63 further conversions (of any kind) are made. -/
theorem C56_stable (st : Texts) (h : st.Inv) (v : Small) (hv : v.Valid) (later : List Small) (hl : ∀ w ∈ later, w.Valid)
    (hn : later.length ≤ 63) :
    ∃ i st1 st2, st.toString v = .ok (i, st1) ∧ st1.run later = .ok st2 ∧ st2.text i = st1.text i := by
  obtain ⟨st1, s1, s2, s3, -, -⟩ := Texts.step_spec st h v hv
  have key : ∀ (l : List Small) (s : Texts) (k : Nat), s.Inv → (∀ w ∈ l, w.Valid) → s.idx = (st.idx + 1 + k) % 64 → k + l.length ≤ 63 →
      ∃ s', s.run l = .ok s' ∧ s'.bufs.getD st.idx [] = s.bufs.getD st.idx [] := by
    intro l
    induction l with
    | nil => intro s k _ _ _ _; exact ⟨s, rfl, rfl⟩
    | cons w ws ih =>
      intro s k hs hw hi hk
      simp only [List.length_cons] at hk
      have hst := h.2.2
      obtain ⟨t, t1, t2, t3, t4, -⟩ := Texts.step_spec s hs w (hw w (by simp))
      obtain ⟨s', r1, r2⟩ := ih t (k + 1) t2 (fun x hx => hw x (by simp [hx])) (by omega) (by omega)
      exact ⟨s', by rw [Texts.run, t1, Out.bind_ok, r1], by rw [r2]; exact t4 _ (by omega)⟩
  obtain ⟨st2, r1, r2⟩ := key later st1 0 s2 hl (by simpa using s3) (by omega)
  exact ⟨st.idx, st1, st2, s1, r1, by unfold Texts.text; rw [r2]⟩

/-- C56 is tight: the 64th further conversion reuses the buffer. -/
theorem C56_tight (st : Texts) (h : st.Inv) (vs : List Small) (hv : ∀ w ∈ vs, w.Valid) (hn : vs.length = 64) :
    ∃ st', st.run vs = .ok st' ∧ st'.idx = st.idx := by
  have key : ∀ (l : List Small) (s : Texts), s.Inv → (∀ w ∈ l, w.Valid) →
      ∃ s', s.run l = .ok s' ∧ s'.idx = (s.idx + l.length) % 64 := by
    intro l
    induction l with
    | nil => intro s hs _; exact ⟨s, rfl, by have := hs.2.2; simp; omega⟩
    | cons w ws ih =>
      intro s hs hw
      obtain ⟨t, t1, t2, t3, -, -⟩ := Texts.step_spec s hs w (hw w (by simp))
      obtain ⟨s', r1, r2⟩ := ih t t2 (fun x hx => hw x (by simp [hx]))
      exact ⟨s', by rw [Texts.run, t1, Out.bind_ok, r1], by rw [r2, t3, List.length_cons]; omega⟩
  obtain ⟨st', r1, r2⟩ := key vs st h hv
  exact ⟨st', r1, by have := h.2.2; omega⟩

example : ∃ i st1 st2, Texts.init.toString (.int32 (-42)) = .ok (i, st1) ∧ st1.run [.uint32 7, .sha1 (List.replicate 20 255)] = .ok st2 ∧
    st2.text i = st1.text i :=
  C56_stable _ Texts.init_inv _ (by unfold Small.Valid isI32 INT_MIN INT_MAX; omega) _ (by simp [Small.Valid]) (by decide)

end BX
