import Verif.Model.Text
import Verif.Model.Types
import Verif.Model.Base64
import Verif.Spec.Codec
namespace BX
open Spec

theorem hexVal_iff (c : Char) (v : Nat) : hexVal c = some v ↔ HexDigit v c := by
  constructor
  · intro h
    have hlt : c.toNat < 128 := by
      unfold hexVal at h
      have e1 : '9'.toNat = 57 := by decide
      have e2 : 'f'.toNat = 102 := by decide
      have e3 : 'F'.toNat = 70 := by decide
      simp only [e1, e2, e3] at h
      split at h
      · omega
      · split at h
        · omega
        · split at h
          · omega
          · cases h
    have tab : ∀ n < 128, (hexVal (Char.ofNat n)).all (fun v => decide (HexDigit v (Char.ofNat n))) = true := by decide +kernel
    have := tab c.toNat hlt
    rw [Char.ofNat_toNat, h] at this
    simpa using this
  · intro h
    have tab : ∀ v < 16, ∀ c ∈ ("0123456789abcdef".toList[v]?.toList ++ "0123456789ABCDEF".toList[v]?.toList), hexVal c = some v := by
      decide +kernel
    have hv : v < 16 := by
      rcases h with h | h
      · have := (List.getElem?_eq_some_iff.mp h).1
        simpa using this
      · have := (List.getElem?_eq_some_iff.mp h).1
        simpa using this
    apply tab v hv c
    rcases h with h | h <;> rw [h] <;> simp

theorem skipSep_sep (sep : List Char) (a : Char) (t : List Char) (v : Nat) (hs : sep = [] ∨ sep = ['-'] ∨ sep = [' '])
    (h : HexDigit v a) : skipSep (sep ++ a :: t) = a :: t := by
  rcases hs with rfl | rfl | rfl
  · have hd := (hexVal_iff a v).mpr h
    have h1 : a ≠ '-' := by rintro rfl; revert hd; simp [hexVal]
    have h2 : a ≠ ' ' := by rintro rfl; revert hd; simp [hexVal]
    show skipSep (a :: t) = a :: t
    unfold skipSep
    split
    · rename_i heq; injection heq with e _; exact absurd e h1
    · rename_i heq; injection heq with e _; exact absurd e h2
    · rfl
  · rfl
  · rfl

theorem skipSep_decomp (p : CStr) : ∃ sep : List Char, (sep = [] ∨ sep = ['-'] ∨ sep = [' ']) ∧ p = sep ++ skipSep p := by
  unfold skipSep
  split
  · exact ⟨['-'], .inr (.inl rfl), rfl⟩
  · exact ⟨[' '], .inr (.inr rfl), rfl⟩
  · exact ⟨[], .inl rfl, rfl⟩

theorem scanHexLoop_nopair (n : Nat) (p : CStr) (h : NoHexPair p) : scanHexLoop n p = [] := by
  cases n with
  | zero => rfl
  | succ n =>
    obtain ⟨sep, hs, hp⟩ := skipSep_decomp p
    unfold scanHexLoop
    split
    · rename_i a b r heq
      split
      · rename_i x y hx hy
        exfalso
        rw [heq] at hp
        exact h sep x y a b r hs ((hexVal_iff _ _).mp hx) ((hexVal_iff _ _).mp hy) hp
      · rfl
    · rfl

theorem scanHexLoop_text (bs : List UInt8) (t rest : CStr) (h : HexText bs t) : ∀ n,
    scanHexLoop n (t ++ rest) = bs.take n ++ (if bs.length ≤ n then scanHexLoop (n - bs.length) rest else []) := by
  induction h with
  | nil => intro n; simp
  | cons sep hi lo a b bs t hs ha hb ht ih =>
    intro n
    cases n with
    | zero => simp [scanHexLoop]
    | succ n =>
      have hsk : skipSep (sep ++ a :: b :: t ++ rest) = a :: b :: (t ++ rest) := by
        have := skipSep_sep sep a (b :: t ++ rest) hi hs ha
        simpa using this
      rw [scanHexLoop, hsk]
      simp only [(hexVal_iff a hi).mpr ha, (hexVal_iff b lo).mpr hb]
      rw [ih n]
      simp only [List.take_succ_cons, List.length_cons, Nat.add_le_add_iff_right, List.cons_append, Nat.add_sub_add_right]
      rw [Nat.mul_comm]

/-- what the loop returned is the reading of a prefix of the text -/
theorem scanHexLoop_sound (n : Nat) (p : CStr) : ∃ t rest, HexText (scanHexLoop n p) t ∧ p = t ++ rest ∧
    ((scanHexLoop n p).length < n → NoHexPair rest) := by
  induction n generalizing p with
  | zero => exact ⟨[], p, .nil, rfl, by intro h; simp at h⟩
  | succ n ih =>
    obtain ⟨sep, hs, hp⟩ := skipSep_decomp p
    by_cases hno : NoHexPair p
    · rw [scanHexLoop_nopair _ _ hno]
      exact ⟨[], p, .nil, rfl, fun _ => hno⟩
    · unfold NoHexPair at hno
      simp only [Classical.not_forall, not_imp, ne_eq, Classical.not_not] at hno
      obtain ⟨sep, hi, lo, a, b, r, hsep, ha, hb, rfl⟩ := hno
      have hsk : skipSep (sep ++ a :: b :: r) = a :: b :: r := skipSep_sep sep a (b :: r) hi hsep ha
      rw [scanHexLoop, hsk]
      simp only [(hexVal_iff a hi).mpr ha, (hexVal_iff b lo).mpr hb]
      obtain ⟨t, rest, h1, h2, h3⟩ := ih r
      refine ⟨sep ++ a :: b :: t, rest, ?_, by rw [h2]; simp, ?_⟩
      · rw [Nat.mul_comm]; exact .cons sep hi lo a b _ t hsep ha hb h1
      · intro hl; apply h3; simp at hl; omega

theorem scanHexLoop_length (n : Nat) (p : CStr) : (scanHexLoop n p).length ≤ n := by
  induction n generalizing p with
  | zero => simp [scanHexLoop]
  | succ n ih =>
    unfold scanHexLoop
    split
    · split
      · simp only [List.length_cons, Nat.add_le_add_iff_right]; apply ih
      · simp
    · simp

theorem hexChar_digit {n : Nat} (h : n < 16) : HexDigit n (hexChar n) := by
  have : ∀ n < 16, HexDigit n (hexChar n) := by decide +kernel
  exact this n h

theorem byte_split (b : UInt8) : UInt8.ofNat (16 * (b.toNat / 16) + b.toNat % 16) = b := by
  rw [show 16 * (b.toNat / 16) + b.toNat % 16 = b.toNat by omega]; simp

theorem hex2Str_text (bs : List UInt8) : HexText bs (hex2Str bs) := by
  induction bs with
  | nil => exact .nil
  | cons b bs ih =>
    have hb := b.toNat_lt
    have := HexText.cons [] (b.toNat / 16) (b.toNat % 16) (hexChar (b.toNat / 16)) (hexChar (b.toNat % 16)) bs _ (.inl rfl)
      (hexChar_digit (by omega)) (hexChar_digit (by omega)) ih
    rw [byte_split] at this
    exact this

theorem hex2Str_append (as bs : List UInt8) : hex2Str (as ++ bs) = hex2Str as ++ hex2Str bs := by
  induction as with
  | nil => rfl
  | cons a as ih => simp [hex2Str, ih]

theorem hex2Str_length (bs : List UInt8) : (hex2Str bs).length = 2 * bs.length := by
  induction bs with
  | nil => rfl
  | cons b bs ih => simp [hex2Str, ih]; omega

theorem noHexPair_nil : NoHexPair [] := by
  intro sep hi lo a b r hs ha hb h; simp at h

theorem Spec.HexText.append {as bs : List UInt8} {s t : List Char} (h1 : HexText as s) (h2 : HexText bs t) :
    HexText (as ++ bs) (s ++ t) := by
  induction h1 with
  | nil => exact h2
  | cons sep hi lo a b bs' t' hs ha hb _ ih =>
    have := HexText.cons sep hi lo a b _ _ hs ha hb ih
    simpa using this

/-- a separator may be put before a non-empty group -/
theorem Spec.HexText.dash {b : UInt8} {bs : List UInt8} : HexText (b :: bs) ('-' :: hex2Str (b :: bs)) := by
  have hb := b.toNat_lt
  have := HexText.cons ['-'] (b.toNat / 16) (b.toNat % 16) (hexChar (b.toNat / 16)) (hexChar (b.toNat % 16)) bs _ (.inr (.inl rfl))
    (hexChar_digit (by omega)) (hexChar_digit (by omega)) (hex2Str_text bs)
  rw [byte_split] at this
  exact this

theorem guid_text (g : List UInt8) (hg : g.length = 16) : HexText g (guid2Str g) := by
  match g, hg with
  | [a0, a1, a2, a3, b0, b1, c0, c1, d0, d1, e0, e1, e2, e3, e4, e5], _ =>
    have h := (((hex2Str_text [a0, a1, a2, a3]).append (.dash (b := b0) (bs := [b1]))).append (.dash (b := c0) (bs := [c1]))).append
      (.dash (b := d0) (bs := [d1]))
    have h2 := h.append (.dash (b := e0) (bs := [e1, e2, e3, e4, e5]))
    exact h2

theorem guid_length (g : List UInt8) (hg : g.length = 16) : (guid2Str g).length = 36 := by
  have := hex2Str_length g
  unfold guid2Str
  simp
  omega

/-- scanning lower-case hexadecimal digits and dashes -/
theorem fold_hexdash (l : CStr) : ∀ (s : Det), (∀ c ∈ l, c = '-' ∨ ∃ n < 16, c = hexChar n) → s.exponentSeen = false → s.dots = 0 →
    let r := l.foldl Det.step s
    r.digits + r.hexadigits + l.count '-' = s.digits + s.hexadigits + l.length ∧ r.dashes = s.dashes + l.count '-' ∧
    r.decimals = s.decimals ∧ r.dots = 0 ∧ r.colons = s.colons ∧ r.others = s.others ∧ r.exponent = s.exponent ∧
    r.spaces = s.spaces ∧ r.whites = s.whites ∧ r.exponentSeen = false ∧ r.negative = s.negative + l.count '-' := by
  induction l with
  | nil => intro s _ h1 h2; simp [h1, h2]
  | cons c cs ih =>
    intro s hl hE hd
    have hrest := fun x hx => hl x (List.mem_cons_of_mem _ hx)
    rcases hl c (by simp) with rfl | ⟨n, hn, rfl⟩
    · have hstep : Det.step s '-' = { s with negative := s.negative + 1, dashes := s.dashes + 1 } := by
        unfold Det.step; simp [hE]
      have := ih { s with negative := s.negative + 1, dashes := s.dashes + 1 } hrest hE hd
      simp only [List.foldl_cons, hstep, List.count_cons_self, List.length_cons] at this ⊢
      refine ⟨by omega, by omega, by omega, by omega, by omega, by omega, by omega, by omega, by omega, this.2.2.2.2.2.2.2.2.2.1, by omega⟩
    · have hne : hexChar n ≠ '-' := by
        have : ∀ n < 16, hexChar n ≠ '-' := by decide +kernel
        exact this n hn
      have hcls : isDig (hexChar n) = true ∨ (isDig (hexChar n) = false ∧ 'a'.toNat ≤ (hexChar n).toNat ∧ (hexChar n).toNat ≤ 'f'.toNat) := by
        have : ∀ n < 16, isDig (hexChar n) = true ∨ (isDig (hexChar n) = false ∧ 'a'.toNat ≤ (hexChar n).toNat ∧ (hexChar n).toNat ≤ 'f'.toNat) := by
          decide +kernel
        exact this n hn
      have hcount : (hexChar n :: cs).count '-' = cs.count '-' := by
        rw [List.count_cons_of_ne hne]
      rcases hcls with hdig | ⟨hnd, hhex⟩
      · obtain ⟨s', hs', e⟩ : ∃ s', Det.step s (hexChar n) = s' ∧ s'.digits = s.digits + 1 ∧ s'.hexadigits = s.hexadigits ∧
            s'.dashes = s.dashes ∧ s'.decimals = s.decimals ∧ s'.dots = s.dots ∧ s'.colons = s.colons ∧ s'.others = s.others ∧
            s'.exponent = s.exponent ∧ s'.spaces = s.spaces ∧ s'.whites = s.whites ∧ s'.exponentSeen = s.exponentSeen ∧
            s'.negative = s.negative := by
          refine ⟨_, rfl, ?_⟩
          unfold Det.step
          rw [if_neg hne, if_pos hdig]
          simp [hd]
        have := ih s' hrest (by rw [e.2.2.2.2.2.2.2.2.2.2.1]; exact hE) (by omega)
        simp only [List.foldl_cons, hs', hcount, List.length_cons] at this ⊢
        refine ⟨by omega, by omega, by omega, by omega, by omega, by omega, by omega, by omega, by omega, this.2.2.2.2.2.2.2.2.2.1, by omega⟩
      · have hstep : Det.step s (hexChar n) = { s with hexadigits := s.hexadigits + 1 } := by
          unfold Det.step
          rw [if_neg hne, if_neg (by simp [hnd]), if_pos hhex]
        have := ih { s with hexadigits := s.hexadigits + 1 } hrest hE hd
        simp only [List.foldl_cons, hstep, hcount, List.length_cons] at this ⊢
        refine ⟨by omega, by omega, by omega, by omega, by omega, by omega, by omega, by omega, by omega, this.2.2.2.2.2.2.2.2.2.1, by omega⟩

theorem hex2Str_chars (bs : List UInt8) : ∀ c ∈ hex2Str bs, ∃ n < 16, c = hexChar n := by
  induction bs with
  | nil => intro c hc; simp [hex2Str] at hc
  | cons b bs ih =>
    intro c hc
    have hb := b.toNat_lt
    simp only [hex2Str, List.mem_cons] at hc
    rcases hc with rfl | rfl | hc
    · exact ⟨b.toNat / 16, by omega, rfl⟩
    · exact ⟨b.toNat % 16, by omega, rfl⟩
    · exact ih c hc

theorem count_dash_hex (bs : List UInt8) : (hex2Str bs).count '-' = 0 := by
  apply List.count_eq_zero.mpr
  intro h
  obtain ⟨n, hn, e⟩ := hex2Str_chars bs _ h
  have : ∀ n < 16, hexChar n ≠ '-' := by decide +kernel
  exact this n hn e.symm

theorem detect_guid (g : List UInt8) (hg : g.length = 16) : detect (guid2Str g) = XBT.GUID := by
  have hlen := guid_length g hg
  have hcount : (guid2Str g).count '-' = 4 := by
    match g, hg with
    | [a0, a1, a2, a3, b0, b1, c0, c1, d0, d1, e0, e1, e2, e3, e4, e5], _ =>
      have e : guid2Str [a0, a1, a2, a3, b0, b1, c0, c1, d0, d1, e0, e1, e2, e3, e4, e5] =
        hex2Str [a0, a1, a2, a3] ++ ('-' :: hex2Str [b0, b1]) ++ ('-' :: hex2Str [c0, c1]) ++ ('-' :: hex2Str [d0, d1]) ++
          ('-' :: hex2Str [e0, e1, e2, e3, e4, e5]) := rfl
      rw [e]
      simp only [List.count_append, List.count_cons_self, count_dash_hex]
  have hchars : ∀ c ∈ guid2Str g, c = '-' ∨ ∃ n < 16, c = hexChar n := by
    intro c hc
    unfold guid2Str at hc
    simp only [List.mem_append, List.mem_cons] at hc
    have mt : ∀ (n m : Nat) c, c ∈ ((hex2Str g).drop n).take m → ∃ n < 16, c = hexChar n := by
      intro n m c h
      exact hex2Str_chars g c (List.mem_of_mem_drop (List.mem_of_mem_take h))
    rcases hc with (((hc | hc | hc) | hc | hc) | hc | hc) | hc | hc
    · exact .inr (hex2Str_chars g c (List.mem_of_mem_take hc))
    all_goals first | exact .inl hc | exact .inr (mt _ _ c hc)
  have hne : guid2Str g ≠ [] := by intro h; rw [h] at hlen; simp at hlen
  have hx : cAt (guid2Str g) 1 ≠ 'x' := by
    have h1 : cAt (guid2Str g) 1 ∈ guid2Str g := by
      unfold cAt
      rw [List.getD_eq_getElem?_getD, List.getElem?_eq_getElem (by omega)]
      exact List.getElem_mem _
    rcases hchars _ h1 with h | ⟨n, hn, h⟩
    · rw [h]; decide
    · rw [h]
      have : ∀ n < 16, hexChar n ≠ 'x' := by decide +kernel
      exact this n hn
  have hd : detect (guid2Str g) = ((guid2Str g).foldl Det.step {}).decide false (guid2Str g).length (guid2Str g) := by
    unfold detect
    split
    · exact absurd (by assumption) hne
    · rename_i heq; rw [heq] at hx; exact absurd rfl hx
    · rfl
  rw [hd]
  have hf := fold_hexdash (guid2Str g) {} hchars rfl rfl
  simp only [hcount, hlen] at hf
  obtain ⟨f1, f2, f3, f4, f5, f6, f7, f8, f9, f10, f11⟩ := hf
  generalize (guid2Str g).foldl Det.step {} = d at *
  have f2 : d.dashes = 4 := f2
  have f3 : d.decimals = 0 := f3
  have f5 : d.colons = 0 := f5
  have f6 : d.others = 0 := f6
  have f7 : d.exponent = 0 := f7
  have f8 : d.spaces = 0 := f8
  have f9 : d.whites = 0 := f9
  have f1 : d.digits + d.hexadigits = 32 := by simpa using f1
  unfold Det.decide
  simp only [hlen, f2, f3, f4, f5, f6, f7, f8, f9, f10, f1]
  simp

/-! base64 -/

theorem b64_eq (v : Nat) (h : v < 64) : b64 v = digit64 v := by
  have : ∀ v < 64, b64 v = digit64 v := by decide +kernel
  exact this v h
theorem back64_digit (v : Nat) (h : v < 64) : back64 (digit64 v) = some v := by
  have : ∀ v < 64, back64 (digit64 v) = some v := by decide +kernel
  exact this v h
theorem back64_eqsign : back64 '=' = none := by decide

theorem group64_eq (a b c : UInt8) : group64 (a.toNat * 65536 + b.toNat * 256 + c.toNat) =
    [b64 (a.toNat / 4), b64 (a.toNat % 4 * 16 + b.toNat / 16), b64 (b.toNat % 16 * 4 + c.toNat / 64), b64 (c.toNat % 64)] := by
  have ha := a.toNat_lt
  have hb := b.toNat_lt
  have hc := c.toNat_lt
  rw [b64_eq _ (by omega), b64_eq _ (by omega), b64_eq _ (by omega), b64_eq _ (by omega)]
  unfold group64
  have e1 : (a.toNat * 65536 + b.toNat * 256 + c.toNat) / 64 ^ 3 % 64 = a.toNat / 4 := by omega
  have e2 : (a.toNat * 65536 + b.toNat * 256 + c.toNat) / 64 ^ 2 % 64 = a.toNat % 4 * 16 + b.toNat / 16 := by omega
  have e3 : (a.toNat * 65536 + b.toNat * 256 + c.toNat) / 64 % 64 = b.toNat % 16 * 4 + c.toNat / 64 := by omega
  have e4 : (a.toNat * 65536 + b.toNat * 256 + c.toNat) % 64 = c.toNat % 64 := by omega
  rw [e1, e2, e3, e4]

theorem text64_one (a : UInt8) : text64 [a] = [b64 (a.toNat / 4), b64 (a.toNat % 4 * 16), '=', '='] := by
  have := group64_eq a 0 0
  simp at this
  simp [text64, this]
theorem text64_two (a b : UInt8) : text64 [a, b] =
    [b64 (a.toNat / 4), b64 (a.toNat % 4 * 16 + b.toNat / 16), b64 (b.toNat % 16 * 4), '='] := by
  have := group64_eq a b 0
  simp at this
  simp [text64, this]
theorem text64_three (a b c : UInt8) (r : List UInt8) : text64 (a :: b :: c :: r) =
    b64 (a.toNat / 4) :: b64 (a.toNat % 4 * 16 + b.toNat / 16) :: b64 (b.toNat % 16 * 4 + c.toNat / 64) :: b64 (c.toNat % 64)
      :: text64 r := by
  simp [text64, group64_eq a b c]

theorem text64_length (src : List UInt8) : (text64 src).length = 4 * ((src.length + 2) / 3) := by
  induction src using text64.induct with
  | case1 => rfl
  | case2 a => rw [text64_one]; simp
  | case3 a b => rw [text64_two]; simp
  | case4 a b c r ih => rw [text64_three]; simp [ih]; omega

theorem b64Pad_two (n : Nat) : b64Pad 2 n = (List.replicate (min n 2) '=', n - min n 2) := by
  match n with
  | 0 => rw [b64Pad]; simp
  | 1 => rw [b64Pad, b64Pad]; simp
  | n+2 => rw [b64Pad, b64Pad, b64Pad]; simp [List.replicate]
theorem b64Pad_three (n : Nat) : b64Pad 3 n = (List.replicate (min n 1) '=', n - min n 1) := by
  match n with
  | 0 => rw [b64Pad]; simp
  | n+1 => rw [b64Pad, b64Pad]; simp [List.replicate]
theorem b64Pad_zero (n : Nat) : b64Pad 0 n = ([], n) := by rw [b64Pad]; simp

/-- number of characters produced in `n` bytes of room -/
def outLen (total n : Nat) : Nat := if total ≤ n then total else if n % 4 = 1 then n - 1 else n

/-- the encoder, in full, for every room -/
theorem base64_full (src : List UInt8) : ∀ n,
    let r := b64EncLoop src n
    let q := b64Pad (r.1.length % 4) r.2
    r.1 ++ q.1 = (text64 src).take (outLen (4 * ((src.length + 2) / 3)) n) ∧
    q.2 = n - outLen (4 * ((src.length + 2) / 3)) n := by
  induction src using text64.induct with
  | case1 => intro n; simp [b64EncLoop, b64Pad_zero, text64, outLen]
  | case2 a =>
    intro n
    rw [text64_one, b64EncLoop]
    by_cases h : n < 2
    · rw [if_pos h]
      simp only [List.length_nil, Nat.zero_mod, b64Pad_zero, List.length_cons]
      have : outLen (4 * ((0 + 1 + 2) / 3)) n = 0 := by unfold outLen; split <;> (try split) <;> omega
      rw [this]; simp
    · rw [if_neg h]
      simp only [true_or, if_true, List.length_cons, List.length_nil]
      rw [show (0+1+1) % 4 = 2 by rfl, b64Pad_two]
      rcases (by omega : n = 2 ∨ n = 3 ∨ 4 ≤ n) with rfl | rfl | h4
      · simp [outLen]
      · simp [outLen]
      · have e1 : min (n - 2) 2 = 2 := by omega
        have e2 : outLen (4 * ((0 + 1 + 2) / 3)) n = 4 := by unfold outLen; rw [if_pos (by omega)]
        rw [e1, e2]
        simp [List.replicate]; omega
  | case3 a b =>
    intro n
    rw [text64_two, b64EncLoop]
    by_cases h : n < 2
    · rw [if_pos h]
      simp only [List.length_nil, Nat.zero_mod, b64Pad_zero, List.length_cons]
      have : outLen (4 * ((0 + 1 + 1 + 2) / 3)) n = 0 := by unfold outLen; split <;> (try split) <;> omega
      rw [this]; simp
    · rw [if_neg h]
      rcases (by omega : n = 2 ∨ n = 3 ∨ 4 ≤ n) with rfl | rfl | h4
      · simp [outLen, b64Pad_two]
      · simp [outLen, b64Pad_three]
      · have e2 : outLen (4 * ((0 + 1 + 1 + 2) / 3)) n = 4 := by unfold outLen; rw [if_pos (by omega)]
        rw [if_neg (by simp; omega), if_pos (by simp)]
        simp only [List.length_cons, List.length_nil, List.headD_cons, List.tail_cons, List.headD_nil]
        rw [show (0+1+1+1) % 4 = 3 by rfl, b64Pad_three, e2]
        have e1 : min (n - 3) 1 = 1 := by omega
        rw [e1]
        simp [List.replicate]; omega
  | case4 a b c r ih =>
    intro n
    rw [text64_three, b64EncLoop]
    have hlen : 4 * (((a :: b :: c :: r).length + 2) / 3) = 4 * ((r.length + 2) / 3) + 4 := by simp; omega
    rw [hlen]
    generalize ht : 4 * ((r.length + 2) / 3) = T at *
    by_cases h : n < 2
    · rw [if_pos h]
      simp only [List.length_nil, Nat.zero_mod, b64Pad_zero]
      have : outLen (T + 4) n = 0 := by unfold outLen; split <;> (try split) <;> omega
      rw [this]; simp
    · rw [if_neg h]
      rcases (by omega : n = 2 ∨ n = 3 ∨ 4 ≤ n) with rfl | rfl | h4
      · have : outLen (T + 4) 2 = 2 := by unfold outLen; rw [if_neg (by omega)]; rfl
        simp [this, b64Pad_two]
      · have : outLen (T + 4) 3 = 3 := by unfold outLen; rw [if_neg (by omega)]; rfl
        simp [this, b64Pad_three]
      · rw [if_neg (by simp; omega), if_neg (by simp; omega)]
        simp only [List.headD_cons, List.tail_cons]
        have := ih (n - 4)
        dsimp only at this
        have hl : (b64EncLoop r (n - 4)).1.length % 4 = ((b64EncLoop r (n - 4)).1.length + 1 + 1 + 1 + 1) % 4 := by omega
        rw [hl] at this
        simp only [List.length_cons, List.cons_append]
        rw [this.1, this.2]
        have ho : outLen (T + 4) n = outLen T (n - 4) + 4 := by
          unfold outLen; split <;> split <;> (try split) <;> (try split) <;> omega
        rw [ho]
        refine ⟨?_, by omega⟩
        simp [List.take_succ_cons]

theorem base64Encode_eq (src : List UInt8) (n : Nat) :
    base64Encode src n = ((text64 src).take (outLen (4 * ((src.length + 2) / 3)) n),
      decide (1 < n - outLen (4 * ((src.length + 2) / 3)) n)) := by
  have h := base64_full src n
  dsimp only at h
  unfold base64Encode
  simp only [h.1, h.2]

theorem b64DecLoop_length (t : CStr) (n : Nat) : (b64DecLoop t n).length ≤ n := by
  fun_induction b64DecLoop t n <;> simp_all <;> omega

theorem b64_back (v : Nat) (h : v < 64) : back64 (b64 v) = some v := by rw [b64_eq v h]; exact back64_digit v h

theorem b64DecLoop_text (src : List UInt8) : ∀ n, b64DecLoop (text64 src) n = src.take n := by
  induction src using text64.induct with
  | case1 => intro n; simp [text64, b64DecLoop]
  | case2 a =>
    intro n
    have ha := a.toNat_lt
    rw [text64_one]
    cases n with
    | zero => simp [b64DecLoop]
    | succ n =>
      rw [b64DecLoop, if_neg (by omega)]
      simp only [b64_back (a.toNat / 4) (by omega), b64_back (a.toNat % 4 * 16) (by omega), back64_eqsign]
      rw [show a.toNat / 4 * 4 + a.toNat % 4 * 16 / 16 = a.toNat by omega]
      simp
  | case3 a b =>
    intro n
    have ha := a.toNat_lt
    have hb := b.toNat_lt
    rw [text64_two]
    have e1 : a.toNat / 4 * 4 + (a.toNat % 4 * 16 + b.toNat / 16) / 16 = a.toNat := by omega
    have e2 : (a.toNat % 4 * 16 + b.toNat / 16) % 16 * 16 + b.toNat % 16 * 4 / 4 = b.toNat := by omega
    match n with
    | 0 => simp [b64DecLoop]
    | 1 =>
      rw [b64DecLoop, if_neg (by omega)]
      simp only [b64_back (a.toNat / 4) (by omega), b64_back (a.toNat % 4 * 16 + b.toNat / 16) (by omega),
        b64_back (b.toNat % 16 * 4) (by omega), e1]
      simp
    | n+2 =>
      rw [b64DecLoop, if_neg (by omega)]
      simp only [b64_back (a.toNat / 4) (by omega), b64_back (a.toNat % 4 * 16 + b.toNat / 16) (by omega),
        b64_back (b.toNat % 16 * 4) (by omega), e1, e2, back64_eqsign]
      simp
  | case4 a b c r ih =>
    intro n
    have ha := a.toNat_lt
    have hb := b.toNat_lt
    have hc := c.toNat_lt
    rw [text64_three]
    have e1 : a.toNat / 4 * 4 + (a.toNat % 4 * 16 + b.toNat / 16) / 16 = a.toNat := by omega
    have e2 : (a.toNat % 4 * 16 + b.toNat / 16) % 16 * 16 + (b.toNat % 16 * 4 + c.toNat / 64) / 4 = b.toNat := by omega
    have e3 : (b.toNat % 16 * 4 + c.toNat / 64) % 4 * 64 + c.toNat % 64 = c.toNat := by omega
    cases n with
    | zero => simp [b64DecLoop]
    | succ n =>
      rw [b64DecLoop, if_neg (by omega)]
      simp only [b64_back (a.toNat / 4) (by omega), b64_back (a.toNat % 4 * 16 + b.toNat / 16) (by omega),
        b64_back (b.toNat % 16 * 4 + c.toNat / 64) (by omega), b64_back (c.toNat % 64) (by omega), e1, e2, e3]
      match n with
      | 0 => simp
      | 1 => simp
      | n+2 =>
        rw [if_neg (by omega), if_neg (by omega)]
        simp [ih]

end BX
