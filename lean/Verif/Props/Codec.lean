import Verif.Lemmas.Codec
/-
Property theorems C08 (hexadecimal), C09 (GUID), C10 (base64).
-/
namespace BX
open Spec

/-! ### C08 -/

/-- C08. The text printed for any byte string scans back to its length and exactly its bytes, the rest of the destination
being zero, for every destination at least that large. -/
theorem C08_roundtrip (bs : List UInt8) (n : Nat) (h : bs.length ≤ n) :
    scanHex (hex2Str bs) n = (bs.length, bs ++ List.replicate (n - bs.length) 0) := by
  have hl := scanHexLoop_text bs (hex2Str bs) [] (hex2Str_text bs) n
  rw [List.append_nil, if_pos h, scanHexLoop_nopair _ _ noHexPair_nil, List.append_nil, List.take_of_length_le h] at hl
  unfold scanHex
  split
  · rename_i he
    have : bs = [] := by
      cases bs with
      | nil => rfl
      | cons b bs => simp [hex2Str] at he
    subst this; simp
  · rw [hl]

/-- C08. Any hexadecimal text (either letter case, one dash or blank allowed before each pair), followed by something that
is no further pair, scans to the bytes it denotes, cut to the destination size. -/
theorem C08_accepts (bs : List UInt8) (t rest : CStr) (n : Nat) (h : HexText bs t) (hr : NoHexPair rest) (hne : t ++ rest ≠ []) :
    scanHex (t ++ rest) n = (min bs.length n, bs.take n ++ List.replicate (n - bs.length) 0) := by
  have hl := scanHexLoop_text bs t rest h n
  rw [scanHexLoop_nopair _ _ hr] at hl
  simp only [ite_self, List.append_nil] at hl
  unfold scanHex
  rw [if_neg hne]
  simp only [hl, List.length_take]
  rw [Nat.min_comm]
  congr 3
  omega

/-- C08. For any text whatever: exactly the given number of destination bytes is written, the count is at most that, the
counted bytes are what a prefix of the text denotes, the others are zero, and scanning stopped only because the room was
used up or no further pair of digits followed. -/
theorem C08_bounded (p : CStr) (n : Nat) :
    (scanHex p n).2.length = n ∧ (scanHex p n).1 ≤ n ∧
    (∀ i, (scanHex p n).1 ≤ i → i < n → (scanHex p n).2[i]? = some 0) ∧
    ∃ t rest, p = t ++ rest ∧ HexText ((scanHex p n).2.take (scanHex p n).1) t ∧ ((scanHex p n).1 < n → NoHexPair rest) := by
  unfold scanHex
  split
  · rename_i he
    subst he
    refine ⟨by simp, Nat.zero_le _, ?_, [], [], rfl, ?_, fun _ => noHexPair_nil⟩
    · intro i _ h; simp [h]
    · simp; exact .nil
  · have h1 := scanHexLoop_length n p
    obtain ⟨t, rest, h2, h3, h4⟩ := scanHexLoop_sound n p
    refine ⟨by simp; omega, h1, ?_, t, rest, h3, by simpa using h2, h4⟩
    intro i hi hin
    dsimp only at hi ⊢
    rw [List.getElem?_append_right hi]
    rw [List.getElem?_replicate, if_pos]
    omega

example : scanHex "0fA0-7 zz".toList 8 = (2, [0x0f, 0xa0, 0, 0, 0, 0, 0, 0]) ∧ hex2Str [0x0f, 0xa0] = "0fa0".toList ∧
    scanHex "0fa0 ff".toList 2 = (2, [0x0f, 0xa0]) := by decide +kernel

/-! ### C09 -/

/-- C09. For every 16-byte GUID: the text has 36 characters, with dashes exactly after 8, 12, 16 and 20 digits; it is
detected as a GUID (always, also when it consists of decimal digits only) and scans back to the same bytes. -/
theorem C09_guid_roundtrip (g : List UInt8) (hg : g.length = 16) :
    (guid2Str g).length = 36 ∧ (∀ i, (guid2Str g)[i]? = some '-' ↔ i = 8 ∨ i = 13 ∨ i = 18 ∨ i = 23) ∧
    detect (guid2Str g) = XBT.GUID ∧ scanHex (guid2Str g) 16 = (16, g) := by
  refine ⟨guid_length g hg, ?_, detect_guid g hg, ?_⟩
  · match g, hg with
    | [a0, a1, a2, a3, b0, b1, c0, c1, d0, d1, e0, e1, e2, e3, e4, e5], _ =>
      have hc : ∀ (b : UInt8), hexChar (b.toNat / 16) ≠ '-' ∧ hexChar (b.toNat % 16) ≠ '-' := by
        intro b
        have hb := b.toNat_lt
        have : ∀ n < 16, hexChar n ≠ '-' := by decide +kernel
        exact ⟨this _ (by omega), this _ (by omega)⟩
      intro i
      have e : guid2Str [a0, a1, a2, a3, b0, b1, c0, c1, d0, d1, e0, e1, e2, e3, e4, e5] =
        hex2Str [a0, a1, a2, a3] ++ ('-' :: hex2Str [b0, b1]) ++ ('-' :: hex2Str [c0, c1]) ++ ('-' :: hex2Str [d0, d1]) ++
          ('-' :: hex2Str [e0, e1, e2, e3, e4, e5]) := rfl
      rw [e]
      simp only [hex2Str, List.cons_append, List.nil_append]
      rcases Nat.lt_or_ge i 36 with hi | hi
      · rcases (by omega : i=0∨i=1∨i=2∨i=3∨i=4∨i=5∨i=6∨i=7∨i=8∨i=9∨i=10∨i=11∨i=12∨i=13∨i=14∨i=15∨i=16∨i=17∨i=18∨i=19∨i=20∨i=21∨i=22∨i=23∨i=24∨i=25∨i=26∨i=27∨i=28∨i=29∨i=30∨i=31∨i=32∨i=33∨i=34∨i=35)
          with rfl|rfl|rfl|rfl|rfl|rfl|rfl|rfl|rfl|rfl|rfl|rfl|rfl|rfl|rfl|rfl|rfl|rfl|rfl|rfl|rfl|rfl|rfl|rfl|rfl|rfl|rfl|rfl|rfl|rfl|rfl|rfl|rfl|rfl|rfl|rfl <;>
          simp [hc]
      · rw [List.getElem?_eq_none (by simpa using hi)]
        simp; omega
  · have h := C08_accepts g (guid2Str g) [] 16 (guid_text g hg) noHexPair_nil (by
      have := guid_length g hg
      intro h; rw [List.append_nil] at h; rw [h] at this; simp at this)
    rw [List.append_nil] at h
    rw [h, hg, List.take_of_length_le (by omega)]
    simp

example : guid2Str [0x5f,0x5b,0x76,0x03,0x6d,0x55,0x45,0xe6,0x8c,0x60,0x07,0xaa,0x5f,0xc6,0xc9,0x45] =
    "5f5b7603-6d55-45e6-8c60-07aa5fc6c945".toList := by decide +kernel

/-! ### C10 -/

/-- C10, encoding: with room for the whole text and two more bytes, exactly the RFC 4648 text is written, terminated, and
its length is 4·⌈n/3⌉. -/
theorem C10_encode (src : List UInt8) (n : Nat) (h : 4 * ((src.length + 2) / 3) + 2 ≤ n) :
    base64Encode src n = (text64 src, true) ∧ (text64 src).length = 4 * ((src.length + 2) / 3) := by
  have hl := text64_length src
  refine ⟨?_, hl⟩
  rw [base64Encode_eq]
  unfold outLen
  rw [if_pos (by omega), List.take_of_length_le (by omega)]
  congr 1
  exact decide_eq_true (by omega)

/-- C10, encoding into too little room: for every size the characters written (with the terminator, if any) fit, and they
are a prefix of the right text. -/
theorem C10_encode_bounded (src : List UInt8) (n : Nat) :
    (base64Encode src n).1 <+: text64 src ∧ (base64Encode src n).1.length ≤ n ∧
    ((base64Encode src n).2 = true → (base64Encode src n).1.length < n) := by
  rw [base64Encode_eq]
  have hl := text64_length src
  refine ⟨List.take_prefix _ _, ?_, ?_⟩
  · simp only [List.length_take, hl]
    unfold outLen; split <;> (try split) <;> omega
  · intro h
    have := of_decide_eq_true h
    simp only [List.length_take, hl]
    omega

/-- C10, decoding: the text of any byte string decodes to it (to its first `n` bytes when there is only room for `n`). -/
theorem C10_decode (src : List UInt8) (n : Nat) :
    base64Decode (text64 src) n = (min src.length n, src.take n ++ List.replicate (n - src.length) 0) := by
  unfold base64Decode
  rw [b64DecLoop_text]
  simp only [List.length_take]
  rw [Nat.min_comm]
  congr 3
  omega

/-- C10: encoding followed by decoding is the identity. -/
theorem C10_roundtrip (src : List UInt8) (n m : Nat) (h : 4 * ((src.length + 2) / 3) + 2 ≤ n) (hm : src.length ≤ m) :
    base64Decode (base64Encode src n).1 m = (src.length, src ++ List.replicate (m - src.length) 0) := by
  rw [(C10_encode src n h).1, C10_decode, Nat.min_eq_left hm, List.take_of_length_le hm]

/-- C10: whatever text is decoded, only the given destination is written. -/
theorem C10_decode_bounded (t : CStr) (n : Nat) : (base64Decode t n).1 ≤ n ∧ (base64Decode t n).2.length = n := by
  have := b64DecLoop_length t n
  unfold base64Decode
  simp; omega

/-- A limit of the code found on the way: with room for the text and one terminator only, the terminator is not written.
`XBT_ToString` reserves exactly that (`size/3*4+5`) when the size is not divisible by three. -/
theorem C10_unterminated (src : List UInt8) (h : src.length % 3 ≠ 0) :
    base64Encode src (src.length / 3 * 4 + 5) = (text64 src, false) := by
  have hl := text64_length src
  rw [base64Encode_eq]
  have e : 4 * ((src.length + 2) / 3) = src.length / 3 * 4 + 4 := by omega
  unfold outLen
  rw [if_pos (by omega), List.take_of_length_le (by omega), e]
  congr 1
  exact decide_eq_false (by omega)

example : base64Encode [0x4d, 0x61, 0x6e, 0xff] 20 = ("TWFu/w==".toList, true) ∧
    base64Decode "TWFu/w==".toList 6 = (4, [0x4d, 0x61, 0x6e, 0xff, 0, 0]) := by decide +kernel

end BX
