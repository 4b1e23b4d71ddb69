import Verif.Spec.GetString
import Verif.Props.Buffers
import Verif.Lemmas.Image
/-
The buffers of `XBT_ToString` after any calls.
-/
namespace BX
open XBT Spec

theorem padDec_le {k n : Nat} (m : Nat) (hk : k ≤ m) (hm : 0 < m) (h : n < 10 ^ m) : (padDec k n).length ≤ m := by
  have := dec_length_le n m hm h
  unfold padDec
  simp only [List.length_append, List.length_replicate]
  omega

theorem padBlank_le {k n : Nat} (m : Nat) (hk : k ≤ m) (hm : 0 < m) (h : n < 10 ^ m) : (padBlank k n).length ≤ m := by
  have := dec_length_le n m hm h
  unfold padBlank
  simp only [List.length_append, List.length_replicate]
  omega

theorem padInt_short {k : Nat} {v : Int} (hk : k ≤ 40) (h : v.natAbs < 10 ^ 40) : (padInt k v).length ≤ 41 := by
  unfold padInt
  split
  · have := padDec_le (k := k - 1) 40 (by omega) (by omega) h
    simp only [List.length_cons]; omega
  · have := padDec_le 40 hk (by omega) h
    omega

theorem padDec_nul {k n : Nat} : ∀ c ∈ padDec k n, c ≠ '\x00' := fun c hc => dig_ne_nul (padDec_digits k n c hc)

theorem padBlank_nul {k n : Nat} : ∀ c ∈ padBlank k n, c ≠ '\x00' := by
  intro c hc
  unfold padBlank at hc
  rcases List.mem_append.1 hc with hc | hc
  · rw [(List.mem_replicate.1 hc).2]; decide
  · exact dig_ne_nul (dec_digits _ c hc)

theorem padInt_nul {k : Nat} {v : Int} : ∀ c ∈ padInt k v, c ≠ '\x00' := by
  intro c hc
  unfold padInt at hc
  split at hc
  · rcases List.mem_cons.1 hc with rfl | hc
    · decide
    · exact padDec_nul c hc
  · exact padDec_nul c hc

/-- short texts without a terminator in them -/
def Short (s : CStr) : Prop := s.length ≤ 255 ∧ ∀ c ∈ s, c ≠ '\x00'

theorem getD_le {l : List Nat} {k : Nat} (h : ∀ x ∈ l, x ≤ k) (i : Nat) : l.getD i 0 ≤ k := by
  rw [List.getD_eq_getElem?_getD]
  cases hi : l[i]? with
  | none => simp
  | some x => simpa using h x (List.mem_of_getElem? hi)

theorem splitDate_year {v : Int} (h : v.natAbs < 10 ^ 10) : (splitDate v).1.natAbs < 10 ^ 40 := by
  have td : ∀ a b : Int, (Int.tdiv a b).natAbs ≤ a.natAbs := by
    intro a b
    rw [Int.natAbs_tdiv]
    exact Nat.div_le_self _ _
  unfold splitDate
  extract_lets v1 q1 q2 v2 y2 v3 q3 v4 y4 v5 q5 v6 y6 v7 q7
  have t1 : q1.natAbs ≤ v1.natAbs := td _ _
  have t3 : q3.natAbs ≤ v3.natAbs := td _ _
  have t5 : q5.natAbs ≤ v5.natAbs := td _ _
  have t7 : q7.natAbs ≤ v7.natAbs := td _ _
  have e1 : v1 = v - 10957 := rfl
  have e2 : q2.natAbs ≤ q1.natAbs + 1 := by show (if v1 < 0 then q1 - 1 else q1).natAbs ≤ _; split <;> omega
  have e3 : v2 = v1 - q2 * 146097 := rfl
  have e4 : y2 = 2000 + q2 * 400 := rfl
  have e5 : v3 = v2 - 1 := rfl
  have e6 : v4 = v3 - q3 * 36524 := rfl
  have e7 : y4 = y2 + q3 * 100 := rfl
  have e8 : v5 = v4 + 1 := rfl
  have e9 : v6 = v5 - q5 * 1461 := rfl
  have e10 : y6 = y4 + q5 * 4 := rfl
  have e11 : v7 = v6 - 1 := rfl
  clear_value v1 q1 q2 v2 y2 v3 q3 v4 y4 v5 q5 v6 y6 v7 q7
  have b1 : v1.natAbs < 10 ^ 11 := by omega
  have b2 : q2.natAbs < 10 ^ 12 := by omega
  clear e1 t1 e2 h td
  have b3 : v2.natAbs < 10 ^ 18 := by omega
  have b4 : y2.natAbs < 10 ^ 18 := by omega
  clear e3 e4 b1 b2
  have b5 : v3.natAbs < 10 ^ 19 := by omega
  have b6 : q3.natAbs < 10 ^ 19 := by omega
  clear e5 t3 b3
  have b7 : v4.natAbs < 10 ^ 24 := by omega
  have b8 : y4.natAbs < 10 ^ 24 := by omega
  clear e6 e7 b5 b6
  have b9 : v5.natAbs < 10 ^ 25 := by omega
  have b10 : q5.natAbs < 10 ^ 25 := by omega
  clear e8 t5 b7
  have b11 : v6.natAbs < 10 ^ 29 := by omega
  have b12 : y6.natAbs < 10 ^ 29 := by omega
  clear e9 e10 b9 b10
  have b13 : v7.natAbs < 10 ^ 30 := by omega
  have b14 : q7.natAbs < 10 ^ 30 := by omega
  clear e11 t7 b11 b13
  repeat' split
  · show y2.natAbs < _; omega
  · show y4.natAbs < _; omega
  · show y6.natAbs < _; omega
  · show (y6 + q7).natAbs < _; omega

theorem date_short {v : Int} {s : CStr} (hv : isI32 v) (h : unixDate2Str v = .ok s) : Short s := by
  have hy : (splitDate v).1.natAbs < 10 ^ 40 := splitDate_year (by unfold isI32 INT_MIN INT_MAX at hv; omega)
  have hm : ∀ x ∈ DAY2MONTH, x ≤ 12 := by decide +kernel
  have hm' : ∀ x ∈ DAY2MONTH_LEAP, x ≤ 12 := by decide +kernel
  have ho : ∀ x ∈ MONTH_OFFSET, x ≤ 400 := by decide +kernel
  have ho' : ∀ x ∈ LEAP_MONTH_OFFSET, x ≤ 400 := by decide +kernel
  have fin : ∀ (y m d : Int), y.natAbs < 10 ^ 40 → m.natAbs < 10 ^ 40 → d.natAbs < 10 ^ 40 → Short (padInt 4 y ++ '-' :: padInt 2 m ++ '-' :: padInt 2 d) := by
    intro y m d h1 h2 h3
    have l1 := padInt_short (k := 4) (by omega) h1
    have l2 := padInt_short (k := 2) (by omega) h2
    have l3 := padInt_short (k := 2) (by omega) h3
    refine ⟨by simp only [List.length_append, List.length_cons]; omega, fun c hc => ?_⟩
    simp only [List.mem_append, List.mem_cons] at hc
    rcases hc with (hc | rfl | hc) | rfl | hc
    · exact padInt_nul c hc
    · decide
    · exact padInt_nul c hc
    · decide
    · exact padInt_nul c hc
  unfold unixDate2Str at h
  split at h
  · cases h
  · split at h
    next year leap w he =>
    rw [he] at hy
    split at h
    · split at h
      · next hw =>
        cases h
        have a := getD_le hm' w.toNat
        have b := getD_le ho' (DAY2MONTH_LEAP.getD w.toNat 0 - 1)
        exact fin _ _ _ hy (by omega) (by omega)
      · cases h
    · split at h
      · next hw =>
        split at h
        · cases h
        · cases h
          have a := getD_le hm w.toNat
          have b := getD_le ho (DAY2MONTH.getD w.toNat 0 - 1)
          exact fin _ _ _ hy (by omega) (by omega)
      · cases h

theorem time_short {gm : Gm} (hg : ∀ n, (gm n).1 < 10 ^ 10 ∧ (gm n).2.1 < 10 ^ 10 ∧ (gm n).2.2 < 10 ^ 10) (v : Nat) : Short (timeText gm v) := by
  unfold timeText
  have h := hg ((v / 86400 : Nat) : Int)
  revert h
  generalize gm ((v / 86400 : Nat) : Int) = p
  obtain ⟨y, m, d⟩ := p
  rintro ⟨h1, h2, h3⟩
  simp only at h1 h2 h3 ⊢
  have l1 := padDec_le (k := 4) (n := y) 10 (by omega) (by omega) (by omega)
  have l2 := padDec_le (k := 2) (n := m) 10 (by omega) (by omega) (by omega)
  have l3 := padDec_le (k := 2) (n := d) 10 (by omega) (by omega) (by omega)
  have l4 := padDec_le (k := 2) (n := v % 86400 / 3600) 10 (by omega) (by omega) (by omega)
  have l5 := padDec_le (k := 2) (n := v % 86400 / 60 % 60) 10 (by omega) (by omega) (by omega)
  have l6 := padDec_le (k := 2) (n := v % 86400 % 60) 10 (by omega) (by omega) (by omega)
  refine ⟨by simp only [List.length_append, List.length_cons]; omega, fun c hc => ?_⟩
  simp only [List.mem_append, List.mem_cons] at hc
  rcases hc with (hc | rfl | hc | rfl | hc) | rfl | hc | rfl | hc | rfl | hc
  all_goals first | decide | exact padDec_nul c hc

theorem time64_short {gm : Gm} (hg : ∀ n, (gm n).1 < 10 ^ 10 ∧ (gm n).2.1 < 10 ^ 10 ∧ (gm n).2.2 < 10 ^ 10) (v : Int) : Short (timeText64 gm v) := by
  unfold timeText64
  extract_lets tm0
  clear_value tm0
  have h := hg (tm0 / 86400)
  revert h
  generalize gm (tm0 / 86400) = p
  obtain ⟨y, m, d⟩ := p
  rintro ⟨h1, h2, h3⟩
  simp only at h1 h2 h3 ⊢
  have hq : (tm0 % 86400).toNat < 86400 := by omega
  show Short (padDec 4 y ++ '-' :: (padDec 2 m ++ '-' :: padDec 2 d) ++ ' ' :: (padBlank 2 ((tm0 % 86400).toNat / 3600) ++ ':' :: (padDec 2 ((tm0 % 86400).toNat / 60 % 60) ++
    ':' :: (padDec 2 ((tm0 % 86400).toNat % 60) ++ '.' :: padInt 3 (Int.tmod v 1000)))))
  generalize (tm0 % 86400).toNat = t at hq ⊢
  have l1 := padDec_le (k := 4) (n := y) 10 (by omega) (by omega) (by omega)
  have l2 := padDec_le (k := 2) (n := m) 10 (by omega) (by omega) (by omega)
  have l3 := padDec_le (k := 2) (n := d) 10 (by omega) (by omega) (by omega)
  have l4 := padBlank_le (k := 2) (n := t / 3600) 10 (by omega) (by omega) (by omega)
  have l5 := padDec_le (k := 2) (n := t / 60 % 60) 10 (by omega) (by omega) (by omega)
  have l6 := padDec_le (k := 2) (n := t % 60) 10 (by omega) (by omega) (by omega)
  have l7 := padInt_short (k := 3) (v := Int.tmod v 1000) (by omega) (by rw [Int.natAbs_tmod]; have := Nat.mod_lt v.natAbs (show 0 < 1000 by omega); have e : (1000 : Int).natAbs = 1000 := rfl; rw [e]; omega)
  refine ⟨by simp only [List.length_append, List.length_cons]; omega, fun c hc => ?_⟩
  simp only [List.mem_append, List.mem_cons] at hc
  rcases hc with (hc | rfl | hc | rfl | hc) | rfl | hc | rfl | hc | rfl | hc | rfl | hc
  all_goals first | decide | exact padDec_nul c hc | exact padBlank_nul c hc | exact padInt_nul c hc

theorem small_short {v : Small} (hv : v.Valid) : Short v.text := ⟨by have := v.text_length hv; omega, v.text_chars⟩

/-- types printed by the last branch of `chunkOnce` -/
def plain (t : XBT) : Bool := match t with
  | INT32 | INT32_DECI | INT32_CENTI | INT32_MILI | INT32_MICRO | INT32_NANO | UINT32 | FLOAT | UNIX_TIME | UNIX_TIME64_MSEC | SHA1 => true
  | _ => false

theorem decimal_short {k : Nat} {v : Int} {s : CStr} (h1 : 1 ≤ k) (h2 : k ≤ 9) (hv : isI32 v) (h : printDecimal k v = .ok s) : Short s := by
  by_cases hm : v = INT_MIN
  · unfold printDecimal at h; rw [if_pos hm] at h; cases h
  · rw [printDecimal_eq k v hm] at h
    cases h
    exact small_short (v := .decimal k v) ⟨h1, h2, hv, hm⟩

theorem plain_short {gm : Gm} {ftx : List UInt8 → CStr} (hl : LibOk gm ftx) {d : Data} (hd : WholeData d) (hp : plain d.type = true) {s : CStr} (h : chunkText gm ftx d.type d.bytes = .ok s) : Short s := by
  obtain ⟨t, bs⟩ := d
  obtain ⟨w1, w2, w3, w4⟩ := hd
  simp only at w1 w2 w3 w4 hp h
  cases t
  all_goals first | (exact absurd hp (by decide)) | skip
  case INT32 =>
    cases h
    exact small_short (v := .int32 (rdI32 bs)) (le32_rdI32 bs (w1 (.inl rfl))).2
  case INT32_DECI => exact decimal_short (k := 1) (by omega) (by omega) (le32_rdI32 bs (w1 (.inl rfl))).2 h
  case INT32_CENTI => exact decimal_short (k := 2) (by omega) (by omega) (le32_rdI32 bs (w1 (.inl rfl))).2 h
  case INT32_MILI => exact decimal_short (k := 3) (by omega) (by omega) (le32_rdI32 bs (w1 (.inl rfl))).2 h
  case INT32_MICRO => exact decimal_short (k := 6) (by omega) (by omega) (le32_rdI32 bs (w1 (.inl rfl))).2 h
  case INT32_NANO => exact decimal_short (k := 9) (by omega) (by omega) (le32_rdI32 bs (w1 (.inl rfl))).2 h
  case UINT32 =>
    cases h
    exact small_short (v := .uint32 (rdU32 bs)) (rdU32_lt bs (w1 (.inl rfl)))
  case FLOAT =>
    cases h
    have := hl.2 bs
    exact ⟨by omega, fun c hc e => this.2 (e ▸ hc)⟩
  case UNIX_TIME => cases h; exact time_short hl.1 _
  case UNIX_TIME64_MSEC => cases h; exact time64_short hl.1 _
  case SHA1 =>
    cases h
    exact small_short (v := .sha1 (bs.take 20)) (by show (bs.take 20).length = 20; simp [w4 rfl])

theorem chunkOnce_plain {gm : Gm} {ftx : List UInt8 → CStr} {d : Data} (hp : plain d.type = true) (b : CStr) :
    chunkOnce gm ftx d 0 b = (chunkText gm ftx d.type d.bytes).bind fun s => .ok (s.length, 4, bufPut (bufPut b (b.length - 1) ['\x00']) 0 (s ++ ['\x00'])) := by
  obtain ⟨t, bs⟩ := d
  replace hp : plain t = true := hp
  cases t <;> first | (exact absurd hp (by decide)) | rfl

theorem put_short {b s : CStr} (hb : b.length = 257) (hs : Short s) : (bufPut b 0 (s ++ ['\x00'])).length = 257 ∧ bufText (bufPut b 0 (s ++ ['\x00'])) = s :=
  ⟨by rw [bufPut_length _ _ _ (by have := hs.1; simp; omega)]; exact hb, bufText_put _ _ hs.2⟩

theorem clear_length {b : CStr} (hb : b.length = 257) : (bufPut b (b.length - 1) ['\x00']).length = 257 := by
  rw [bufPut_length _ _ _ (by simp; omega)]; exact hb

/-- a value printed with its terminator -/
theorem bufferPut_plain {gm : Gm} {ftx : List UInt8 → CStr} (hl : LibOk gm ftx) {d : Data} (hd : WholeData d) (hp : plain d.type = true) {s : CStr} (h : chunkText gm ftx d.type d.bytes = .ok s) {b : CStr} (hb : b.length = 257) :
    ∃ b', bufferPut gm ftx d b = .ok b' ∧ b'.length = 257 ∧ bufText b' = s := by
  refine ⟨bufPut (bufPut b (b.length - 1) ['\x00']) 0 (s ++ ['\x00']), ?_, put_short (clear_length hb) (plain_short hl hd hp h)⟩
  have e : bufferPut gm ftx d b = (chunkOnce gm ftx d 0 b).bind fun r => .ok r.2.2 := by
    obtain ⟨t, bs⟩ := d
    replace hp : plain t = true := hp
    cases t <;> first | (exact absurd hp (by decide)) | rfl
  rw [e, chunkOnce_plain hp, h]
  rfl

/-- the 64-bit numbers -/
theorem bufferPut_small {gm : Gm} {ftx : List UInt8 → CStr} {bs : List UInt8} {b : CStr} :
    bufferPut gm ftx ⟨INT64, bs⟩ b = (Small.int64 (rdI64 bs)).put b ∧ bufferPut gm ftx ⟨UINT64, bs⟩ b = (Small.uint64 (rdU64 bs)).put b ∧ bufferPut gm ftx ⟨GUID, bs⟩ b = (Small.guid (bs.take 16)).put b := by
  refine ⟨?_, ?_, rfl⟩
  · show (chunkOnce gm ftx ⟨INT64, bs⟩ 0 b).bind (fun r => .ok r.2.2) = _
    simp only [chunkOnce, Small.put]
    by_cases h0 : rdI64 bs = 0
    · rw [h0]; rfl
    · by_cases h1 : rdI64 bs = -576460752303423488
      · rw [h1]; rfl
      · rw [if_neg h0]
        simp only [h0, h1, or_self, if_false]
        cases printInt64Chunk (rdI64 bs) <;> rfl
  · show (chunkOnce gm ftx ⟨UINT64, bs⟩ 0 b).bind (fun r => .ok r.2.2) = _
    simp only [chunkOnce, Small.put]
    by_cases h0 : rdU64 bs = 0
    · rw [h0]; rfl
    · simp only [h0, if_false]; rfl

theorem bufferPut_length {gm : Gm} {ftx : List UInt8 → CStr} (hl : LibOk gm ftx) {d : Data} (hd : WholeData d) (ht : buffered d.type = true) {b b' : CStr} (hb : b.length = 257) (h : bufferPut gm ftx d b = .ok b') : b'.length = 257 := by
  by_cases hp : plain d.type = true
  · cases hc : chunkText gm ftx d.type d.bytes with
    | ok s =>
      obtain ⟨b2, h1, h2, -⟩ := bufferPut_plain hl hd hp hc hb
      rw [h] at h1; cases h1; exact h2
    | fail =>
      have e : bufferPut gm ftx d b = (chunkOnce gm ftx d 0 b).bind fun r => .ok r.2.2 := by
        obtain ⟨t, bs⟩ := d
        replace hp : plain t = true := hp
        cases t <;> first | (exact absurd hp (by decide)) | rfl
      rw [e, chunkOnce_plain hp, hc] at h; cases h
    | ub =>
      have e : bufferPut gm ftx d b = (chunkOnce gm ftx d 0 b).bind fun r => .ok r.2.2 := by
        obtain ⟨t, bs⟩ := d
        replace hp : plain t = true := hp
        cases t <;> first | (exact absurd hp (by decide)) | rfl
      rw [e, chunkOnce_plain hp, hc] at h; cases h
  · obtain ⟨t, bs⟩ := d
    obtain ⟨w1, w2, w3, w4⟩ := hd
    simp only at w1 w2 w3 w4 hp ht
    have hg : t = GUID ∨ t = INT64 ∨ t = UINT64 ∨ t = UNIX_DATE := by
      cases t <;> first | (exact absurd ht (by decide)) | (exact absurd rfl hp) | simp
    rcases hg with rfl | rfl | rfl | rfl
    · rw [bufferPut_small.2.2] at h
      obtain ⟨b2, h1, h2, -⟩ := Small.put_eq (.guid (bs.take 16)) (by show (bs.take 16).length = 16; simp [w3 rfl]) b hb
      rw [h] at h1; cases h1; exact h2
    · rw [bufferPut_small.1] at h
      by_cases hm : rdI64 bs = INT64_MIN
      · rw [hm] at h
        simp only [Small.put, printInt64Chunk] at h
        revert h; simp [INT64_MIN, Out.bind]
      · obtain ⟨b2, h1, h2, -⟩ := Small.put_eq (.int64 (rdI64 bs)) ⟨(le64_rdI64 bs (w2 rfl)).2, hm⟩ b hb
        rw [h] at h1; cases h1; exact h2
    · rw [bufferPut_small.2.1] at h
      obtain ⟨b2, h1, h2, -⟩ := Small.put_eq (.uint64 (rdU64 bs)) (rdU64_lt bs (w2 rfl)) b hb
      rw [h] at h1; cases h1; exact h2
    · unfold bufferPut at h
      simp only at h
      split at h
      · next s hs =>
        split at h
        · cases h
          exact (put_short (clear_length hb) (date_short (le32_rdI32 bs (w1 (.inr rfl))).2 hs)).1
        · cases h
      · cases h; exact clear_length hb
      · cases h

theorem toStr_buffered {gm : Gm} {ftx : List UInt8 → CStr} {d : Data} (ht : buffered d.type = true) (st : Texts) :
    st.toStr gm ftx d = (bufferPut gm ftx d (st.bufs.getD st.idx [])).bind fun b => .ok (some (bufText b), ⟨st.bufs.set st.idx b, if st.idx + 1 ≥ 64 then 0 else st.idx + 1⟩) := by
  obtain ⟨t, bs⟩ := d
  replace ht : buffered t = true := ht
  cases t <;> first | (exact absurd ht (by decide)) | rfl

theorem toStr_other {gm : Gm} {ftx : List UInt8 → CStr} {d : Data} (ht : buffered d.type = false) {st st' : Texts} {s : Option CStr} (h : st.toStr gm ftx d = .ok (s, st')) : st' = st := by
  obtain ⟨t, bs⟩ := d
  unfold Texts.toStr at h
  replace ht : buffered t = false := ht
  cases t <;> first | (exact absurd ht (by decide)) | skip
  all_goals simp only [buffered, Bool.false_eq_true, if_false] at h
  all_goals repeat' split at h
  all_goals first | (cases h; rfl) | cases h

theorem asked_inv {gm : Gm} {ftx : List UInt8 → CStr} (hl : LibOk gm ftx) {st : Texts} (h : Asked gm ftx st) : st.Inv := by
  induction h with
  | start => exact Texts.init_inv
  | next h hd hs ih =>
    rename_i st st' d s
    by_cases ht : buffered d.type = true
    · rw [toStr_buffered ht] at hs
      obtain ⟨b, hb, hs⟩ := Out.bind_eq_ok hs
      cases hs
      obtain ⟨i1, i2, i3⟩ := ih
      have hm : st.bufs.getD st.idx [] ∈ st.bufs := by
        rw [List.getD_eq_getElem?_getD, List.getElem?_eq_getElem (by omega)]; exact List.getElem_mem _
      refine ⟨by simp [i1], fun c hc => ?_, by simp only; split <;> omega⟩
      rcases List.mem_or_eq_of_mem_set hc with hc | rfl
      · exact i2 _ hc
      · exact bufferPut_length hl hd ht (i2 _ hm) hb
    · rw [toStr_other (by simpa using ht) hs]; exact ih

theorem inv_buffer {st : Texts} (h : st.Inv) : (st.bufs.getD st.idx []).length = 257 := by
  obtain ⟨i1, i2, i3⟩ := h
  refine i2 _ ?_
  rw [List.getD_eq_getElem?_getD, List.getElem?_eq_getElem (by omega)]; exact List.getElem_mem _

end BX
