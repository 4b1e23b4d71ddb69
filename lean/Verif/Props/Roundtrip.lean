import Verif.Model.ToText
import Verif.Props.Text
import Verif.Props.Codec
import Verif.Props.Timestamps
/-! # C58: the text of a stored value converts back to the stored value

The conversions of `C04` to `C09`, `C13` and `C57` put together the way a user meets them: through the functions that take
the type as an argument, from the stored bytes to the text and back to the stored bytes. -/
namespace BX
open BX.Spec XBT

/-- the calendar function gives the right date of day `n` -/
def GmOk (gm : Gm) (n : Int) : Prop :=
  ValidDate (gm n).1 (gm n).2.1 (gm n).2.2 ∧ dayNumber (gm n).1 (gm n).2.1 (gm n).2.2 = n

/-- The stored values whose text is expected to convert back, type by type; the others are the subject of the `false`
theorems below and of `C05_sign_lost`, `C06_special_constant`, `C13_fails_on_leap_year_end`. -/
def TextSafe (gm : Gm) (t : XBT) (d : List UInt8) : Prop :=
  match t with
  | NULL => d = []
  | INT32 => d.length = 4
  | INT32_DECI => d.length = 4 ∧ (rdI32 d).natAbs + 48 ≤ 2147483647 ∧ (0 ≤ rdI32 d ∨ rdI32 d ≤ -10)
  | INT32_CENTI => d.length = 4 ∧ (rdI32 d).natAbs + 48 ≤ 2147483647 ∧ (0 ≤ rdI32 d ∨ rdI32 d ≤ -100)
  | INT32_MILI => d.length = 4 ∧ (rdI32 d).natAbs + 48 ≤ 2147483647 ∧ (0 ≤ rdI32 d ∨ rdI32 d ≤ -1000)
  | INT32_MICRO => d.length = 4 ∧ (rdI32 d).natAbs + 48 ≤ 2147483647 ∧ (0 ≤ rdI32 d ∨ rdI32 d ≤ -1000000)
  | INT32_NANO => d.length = 4 ∧ (rdI32 d).natAbs + 48 ≤ 2147483647 ∧ (0 ≤ rdI32 d ∨ rdI32 d ≤ -1000000000)
  | IPv4 => d.length = 4
  | INT64 => d.length = 8 ∧ rdI64 d ≠ INT64_MIN ∧ rdI64 d ≠ -576460752303423488
  | UINT64 => d.length = 8
  | UNIX_TIME => d.length = 4 ∧ GmOk gm ((rdU32 d / 86400 : Nat) : Int)
  | UNIX_DATE => d.length = 4 ∧ 0 ≤ rdI32 d ∧ rdI32 d ≤ dayNumber 9999 12 31 ∧ ∀ y, Leap y → rdI32 d ≠ dayNumber y 12 31
  | UNIX_TIME64_MSEC => d.length = 8 ∧ 0 ≤ rdI64 d ∧ rdI64 d < 2 ^ 32 * 1000 ∧ GmOk gm (rdI64 d / 86400000)
  | GUID => d.length = 16
  | SHA1 => d.length = 20
  | _ => False

/-! ### stored bytes and numbers -/

theorem leN_rdN (d : List UInt8) : leN d.length (rdN d) = d := by
  induction d with
  | nil => rfl
  | cons b bs ih =>
    simp only [List.length_cons, leN, rdN]
    have hb := b.toNat_lt
    rw [show (b.toNat + 256 * rdN bs) / 256 = rdN bs by omega, ih]
    congr 1
    apply UInt8.toNat_inj.mp
    rw [UInt8.toNat_ofNat']; omega

theorem rdN_lt (d : List UInt8) : rdN d < 256 ^ d.length := by
  induction d with
  | nil => decide
  | cons b bs ih =>
    have hb := b.toNat_lt
    simp only [List.length_cons, rdN, Nat.pow_succ]; omega

theorem leN4_rdU32 (d : List UInt8) (h : d.length = 4) : leN 4 (rdU32 d) = d := by
  unfold rdU32; rw [List.take_of_length_le (by omega), ← h]; exact leN_rdN d

theorem rdU32_lt (d : List UInt8) (h : d.length = 4) : rdU32 d < 2 ^ 32 := by
  unfold rdU32; rw [List.take_of_length_le (by omega)]; have := rdN_lt d; rw [h] at this; simpa using this

theorem le32_rdI32 (d : List UInt8) (h : d.length = 4) : le32 (rdI32 d) = d ∧ isI32 (rdI32 d) := by
  have h1 := rdU32_lt d h
  have h2 := leN4_rdU32 d h
  unfold rdU32 at h1 h2
  unfold le32 rdI32
  generalize rdN (d.take 4) = n at *
  have : toU 32 (ofU 32 n) = n := by unfold toU ofU; split <;> omega
  rw [this]
  exact ⟨h2, by unfold isI32 INT_MIN INT_MAX ofU; split <;> omega⟩

theorem leN8_rdU64 (d : List UInt8) (h : d.length = 8) : leN 8 (rdU64 d) = d := by
  unfold rdU64; rw [List.take_of_length_le (by omega), ← h]; exact leN_rdN d

theorem rdU64_lt (d : List UInt8) (h : d.length = 8) : rdU64 d < 2 ^ 64 := by
  unfold rdU64; rw [List.take_of_length_le (by omega)]; have := rdN_lt d; rw [h] at this; simpa using this

theorem le64_rdI64 (d : List UInt8) (h : d.length = 8) : le64 (rdI64 d) = d ∧ isI64 (rdI64 d) := by
  have h1 := rdU64_lt d h
  have h2 := leN8_rdU64 d h
  unfold rdU64 at h1 h2
  unfold le64 rdI64
  generalize rdN (d.take 8) = n at *
  have : toU 64 (ofU 64 n) = n := by unfold toU ofU; split <;> omega
  rw [this]
  exact ⟨h2, by unfold isI64 INT64_MIN INT64_MAX ofU; split <;> omega⟩

/-! ### timestamps -/

theorem year_small {y m d : Nat} {n : Int} (hv : ValidDate y m d) (h : dayNumber y m d = n) (h1 : n ≤ 49710) : y < 10000 := by
  have a : (daysToYear 10000 : Int) = 3652425 := by rw [daysToYear_closed]; rfl
  have b : (daysToYear 1970 : Int) = 719528 := by rw [daysToYear_closed]; rfl
  rcases Nat.lt_or_ge y 10000 with hy | hy
  · exact hy
  · exfalso
    have := daysToYear_mono hy
    have := hv.2.2.1
    unfold dayNumber at h
    omega

theorem scanInt_blank (n : Nat) (rest : CStr) (h : n < 100) (hr : NoDigit rest) :
    scanInt (padBlank 2 n ++ rest) = scanInt (padDec 2 n ++ rest) := by
  have a := scanSigned_run 2147483647 (List.replicate (2 - (dec n).length) ' ') (dec n) rest false
    (by intro c hc; rw [List.eq_of_mem_replicate hc]; decide) (dec_Digits n) hr
  have hn := padDec_numeral 2 n (by omega) (by omega)
  have b := scanSigned_run 2147483647 [] (padDec 2 n) rest false (by intro c hc; simp at hc) hn.1.1 hr
  rw [hn.1.2] at b
  rw [dec_value] at a
  simp only [Bool.false_eq_true, if_false, List.append_nil, List.nil_append] at a b
  unfold scanInt padBlank
  rw [a, b]

/-- blanks before the hour are read like zeros -/
theorem scanUnixTime_blank (y m d n : Nat) (date rest : CStr) (hv : ValidDate y m d) (hy : 1970 ≤ y) (hd : DateText y m d date)
    (hmax : dayNumber y m d ≤ 49710) (h : n < 100) (hr : NoDigit rest) :
    scanUnixTime (date ++ ' ' :: (padBlank 2 n ++ rest)) = scanUnixTime (date ++ ' ' :: (padDec 2 n ++ rest)) := by
  have nsep : ∀ r, NoDigit (' ' :: r) := by intro r; show isDig ' ' = false; decide
  obtain ⟨_, s1, _⟩ := unixTime_date y m d date _ hv hy hd (nsep (padBlank 2 n ++ rest)) hmax
  obtain ⟨_, s2, _⟩ := unixTime_date y m d date _ hv hy hd (nsep (padDec 2 n ++ rest)) hmax
  unfold scanUnixTime
  rw [s1, s2]
  simp only [Out.bind_ok, List.tail_cons, scanInt_blank n rest h hr]
  rfl

theorem isoDate_pad {y m d : Nat} (hv : ValidDate y m d) (hy : y < 10000) :
    IsoDate y m d (padDec 4 y ++ '-' :: (padDec 2 m ++ '-' :: padDec 2 d)) := by
  have := valid_small hv
  have a := padDec_numeral 4 y (by omega) (by omega)
  have b := padDec_numeral 2 m (by omega) (by have := hv.2.1; omega)
  have c := padDec_numeral 2 d (by omega) (by omega)
  exact ⟨_, _, _, a.1, a.2, b.1, b.2, c.1, c.2, rfl⟩

theorem isoDate_date {y m d : Nat} {s : CStr} (h : IsoDate y m d s) : DateText y m d s := by
  obtain ⟨a, b, c, h1, _, h2, _, h3, _, e⟩ := h
  exact ⟨a, b, c, h1, h2, h3, e⟩

theorem gm_70 {gm : Gm} {n : Int} (h : GmOk gm n) (h0 : 0 ≤ n) : 1970 ≤ (gm n).1 := by
  apply year_le h.1
  rw [h.2]; omega

theorem scan_timeText (gm : Gm) (v : Nat) (h : v < 2 ^ 32) (hg : GmOk gm ((v / 86400 : Nat) : Int)) :
    scanUnixTime (timeText gm v) = .ok (v, []) := by
  have hy := gm_70 hg (by omega)
  have hs := year_small hg.1 hg.2 (by omega)
  unfold timeText
  obtain ⟨hv, hn⟩ := hg
  generalize gm ((v / 86400 : Nat) : Int) = g at *
  obtain ⟨y, m, d⟩ := g
  simp only at *
  have a := padDec_numeral 2 (v % 86400 / 3600) (by omega) (by omega)
  have b := padDec_numeral 2 (v % 86400 / 60 % 60) (by omega) (by omega)
  have c := padDec_numeral 2 (v % 86400 % 60) (by omega) (by omega)
  have hsec : secondsOf y m d (v % 86400 / 3600) (v % 86400 / 60 % 60) (v % 86400 % 60) = v := by
    unfold secondsOf; rw [hn]; omega
  obtain ⟨w, h1, h2⟩ := C14_seconds_partial y m d (v % 86400 / 3600) (v % 86400 / 60 % 60) (v % 86400 % 60) _ _ [] ' ' (.inl rfl)
    hv ⟨by omega, by omega, by omega⟩ hy (isoDate_date (isoDate_pad hv hs)) ⟨_, _, _, a.1, b.1, c.1, rfl⟩ (by decide) (by rw [hsec]; omega)
  rw [hsec] at h2
  rw [List.append_nil] at h1
  rw [h1]
  congr 2
  omega

theorem scan_timeText64 (gm : Gm) (v : Int) (h0 : 0 ≤ v) (h : v < 2 ^ 32 * 1000) (hg : GmOk gm (v / 86400000)) :
    scanUnixTime64msec (timeText64 gm v) = .ok v := by
  obtain ⟨n, rfl⟩ : ∃ n : Nat, v = n := ⟨v.toNat, by omega⟩
  have hy := gm_70 hg (by omega)
  have hs := year_small hg.1 hg.2 (by omega)
  have e1 : Int.tdiv (n : Int) 1000 = ((n / 1000 : Nat) : Int) := by
    rw [Int.tdiv_eq_ediv_of_nonneg (by omega)]; omega
  have e2 : Int.tmod (n : Int) 1000 = ((n % 1000 : Nat) : Int) := by
    rw [Int.tmod_eq_emod_of_nonneg (by omega)]; omega
  unfold timeText64
  rw [e1, e2, padInt_nat]
  simp only []
  rw [show ((n / 1000 : Nat) : Int) / 86400 = (n : Int) / 86400000 by omega]
  rw [show (((n / 1000 : Nat) : Int) % 86400).toNat = n / 1000 % 86400 by omega]
  obtain ⟨hv, hn⟩ := hg
  generalize gm ((n : Int) / 86400000) = g at *
  obtain ⟨y, m, d⟩ := g
  simp only at *
  have a := padDec_numeral 2 (n / 1000 % 86400 / 3600) (by omega) (by omega)
  have b := padDec_numeral 2 (n / 1000 % 86400 / 60 % 60) (by omega) (by omega)
  have c := padDec_numeral 2 (n / 1000 % 86400 % 60) (by omega) (by omega)
  have e := padDec_numeral 3 (n % 1000) (by omega) (by omega)
  have hsec : secondsOf y m d (n / 1000 % 86400 / 3600) (n / 1000 % 86400 / 60 % 60) (n / 1000 % 86400 % 60) = ((n / 1000 : Nat) : Int) := by
    unfold secondsOf; rw [hn]; omega
  have key := C14_milliseconds_partial y m d (n / 1000 % 86400 / 3600) (n / 1000 % 86400 / 60 % 60) (n / 1000 % 86400 % 60) (n % 1000)
    _ _ _ hv ⟨by omega, by omega, by omega⟩ hy (isoDate_pad hv hs) ⟨_, _, _, a.1, b.1, c.1, rfl⟩ e.1 e.2 [] (by rw [hsec]; omega)
  rw [hsec] at key
  have nd : ∀ r, NoDigit (':' :: r) := by intro r; show isDig ':' = false; decide
  have hb := scanUnixTime_blank y m d (n / 1000 % 86400 / 3600) _ (':' :: (padDec 2 (n / 1000 % 86400 / 60 % 60) ++
    ':' :: (padDec 2 (n / 1000 % 86400 % 60) ++ '.' :: padDec 3 (n % 1000)))) hv hy (isoDate_date (isoDate_pad hv hs)) (by rw [hn]; omega) (by omega) (nd _)
  have hc : ∀ r tm p, zoneShift (padDec 4 y ++ '-' :: (padDec 2 m ++ '-' :: padDec 2 d) ++ ' ' :: r) tm p = .ok tm := by
    intro r tm p
    unfold zoneShift
    rw [if_neg]
    obtain ⟨ys, mos, ds, _, la, _, lb, _, lc, he⟩ := isoDate_pad hv hs
    have hlen : (padDec 4 y ++ '-' :: (padDec 2 m ++ '-' :: padDec 2 d)).length = 10 := by rw [he]; simp [la, lb, lc]
    unfold cAt
    rw [List.getD_eq_getElem?_getD, List.getElem?_append_right (by omega), hlen]
    simp
  have fin : scanUnixTime64msec (padDec 4 y ++ '-' :: (padDec 2 m ++ '-' :: padDec 2 d) ++ ' ' ::
      (padBlank 2 (n / 1000 % 86400 / 3600) ++ ':' :: (padDec 2 (n / 1000 % 86400 / 60 % 60) ++
    ':' :: (padDec 2 (n / 1000 % 86400 % 60) ++ '.' :: padDec 3 (n % 1000))))) =
    scanUnixTime64msec (padDec 4 y ++ '-' :: (padDec 2 m ++ '-' :: padDec 2 d) ++ ' ' ::
      (padDec 2 (n / 1000 % 86400 / 3600) ++ ':' :: (padDec 2 (n / 1000 % 86400 / 60 % 60) ++
    ':' :: (padDec 2 (n / 1000 % 86400 % 60) ++ '.' :: padDec 3 (n % 1000))))) := by
    unfold scanUnixTime64msec
    rw [hb]
    simp only [hc]
  rw [fin]
  rw [List.append_nil] at key
  simp only [List.append_assoc, List.cons_append] at key ⊢
  rw [key]
  congr 1
  omega

/-! ### C58 -/

theorem hex_len (bs : List UInt8) (n : Nat) (h : bs.length = n) : scanHex (hex2Str bs) n = (n, bs) := by
  subst h
  have := C08_roundtrip bs bs.length (Nat.le_refl _)
  simpa using this

/-- C58. The text `XBT_ToStringChunk` gives for a stored value, converted by `XBT_FromString` of the same type at any write
position, stores the very same bytes at the position aligned as the type wants (the timestamp with milliseconds is aligned
to four bytes only), and touches nothing else. -/
theorem C58_roundtrip_partial (gm : Gm) (flt : CStr → List UInt8) (ftx : List UInt8 → CStr) (t : XBT) (d : List UInt8)
    (h : TextSafe gm t d) (wp limit : Nat) :
    ∃ s, chunkText gm ftx t d = .ok s ∧
      fromString flt s t wp limit = .ok ⟨if t = NULL then wp else if t = INT64 ∨ t = UINT64 then aa8 wp else aa wp, d, 0⟩ := by
  have deci : ∀ (T : XBT) (k : Nat), decimalsOf T = some k → d.length = 4 → (rdI32 d).natAbs + 48 ≤ 2147483647 →
      (0 ≤ rdI32 d ∨ rdI32 d ≤ -((10 ^ k : Nat) : Int)) → ∃ s, printDecimal k (rdI32 d) = .ok s ∧
        (str2dec s k).bind (fun v => Out.ok (Wr.mk (aa wp) (le32 v) 0)) = .ok ⟨aa wp, d, 0⟩ := by
    intro T k hT hl h1 h2
    obtain ⟨s, e1, e2⟩ := C05_roundtrip_partial T k (rdI32 d) hT h1 h2
    refine ⟨s, e1, ?_⟩
    rw [e2, Out.bind_ok, (le32_rdI32 d hl).1]
  cases t <;> simp only [TextSafe] at h
  case NULL => exact ⟨[], rfl, by simp [fromString, h]⟩
  case INT32 =>
    obtain ⟨e1, e2⟩ := le32_rdI32 d h
    refine ⟨_, rfl, ?_⟩
    simp [fromString, (C04_int32_roundtrip _ e2).2.2, e1]
  case INT32_DECI =>
    obtain ⟨s, e1, e2⟩ := deci INT32_DECI 1 rfl h.1 h.2.1 (by have := h.2.2; omega)
    exact ⟨s, e1, by simpa [fromString] using e2⟩
  case INT32_CENTI =>
    obtain ⟨s, e1, e2⟩ := deci INT32_CENTI 2 rfl h.1 h.2.1 (by have := h.2.2; omega)
    exact ⟨s, e1, by simpa [fromString] using e2⟩
  case INT32_MILI =>
    obtain ⟨s, e1, e2⟩ := deci INT32_MILI 3 rfl h.1 h.2.1 (by have := h.2.2; omega)
    exact ⟨s, e1, by simpa [fromString] using e2⟩
  case INT32_MICRO =>
    obtain ⟨s, e1, e2⟩ := deci INT32_MICRO 6 rfl h.1 h.2.1 (by have := h.2.2; omega)
    exact ⟨s, e1, by simpa [fromString] using e2⟩
  case INT32_NANO =>
    obtain ⟨s, e1, e2⟩ := deci INT32_NANO 9 rfl h.1 h.2.1 (by have := h.2.2; omega)
    exact ⟨s, e1, by simpa [fromString] using e2⟩
  case IPv4 =>
    refine ⟨_, rfl, ?_⟩
    simp [fromString, (C07_ipv4_roundtrip _ (rdU32_lt d h)).1, leN4_rdU32 d h]
  case INT64 =>
    obtain ⟨e1, e2⟩ := le64_rdI64 d h.1
    obtain ⟨s, e3, e4, _⟩ := (C06_int64_roundtrip_partial _ e2 h.2.1).2 h.2.2
    refine ⟨s, e3, ?_⟩
    simp [fromString, e4, e1]
  case UINT64 =>
    refine ⟨_, rfl, ?_⟩
    simp [fromString, C06_uint64_roundtrip _ (rdU64_lt d h), leN8_rdU64 d h]
  case UNIX_TIME =>
    refine ⟨_, rfl, ?_⟩
    simp [fromString, scan_timeText gm _ (rdU32_lt d h.1) h.2, leN4_rdU32 d h.1]
  case UNIX_DATE =>
    obtain ⟨s, e1, e2⟩ := C13_roundtrip_partial (rdI32 d) h.2.1 h.2.2.1 h.2.2.2
    refine ⟨s, by simp [chunkText, e1], ?_⟩
    simp [fromString, e2, (le32_rdI32 d h.1).1]
  case UNIX_TIME64_MSEC =>
    refine ⟨_, rfl, ?_⟩
    simp [fromString, scan_timeText64 gm _ h.2.1 h.2.2.1 h.2.2.2, (le64_rdI64 d h.1).1]
  case GUID =>
    refine ⟨_, rfl, ?_⟩
    rw [List.take_of_length_le (by omega)]
    simp [fromString, hex_len d 16 h]
  case SHA1 =>
    refine ⟨_, rfl, ?_⟩
    rw [List.take_of_length_le (by omega)]
    simp [fromString, hex_len d 20 h]

/-- The same for the text with dashes that `XBT_ToString` gives for a GUID. -/
theorem C58_guid (flt : CStr → List UInt8) (d : List UInt8) (h : d.length = 16) (wp limit : Nat) :
    fromString flt (guid2Str d) GUID wp limit = .ok ⟨aa wp, d, 0⟩ := by
  simp [fromString, (C09_guid_roundtrip d h).2.2.2]

/-- Unsigned 32-bit numbers have a text, but no text converts to them. -/
theorem C58_uint32_false (gm : Gm) (flt : CStr → List UInt8) (ftx : List UInt8 → CStr) (d : List UInt8) (wp limit : Nat) :
    (∃ s, chunkText gm ftx UINT32 d = .ok s) ∧ ∀ s, fromString flt s UINT32 wp limit = .fail :=
  ⟨⟨_, rfl⟩, fun _ => rfl⟩

/-- The last day of a leap year has an empty text, which is refused. -/
theorem C58_date_false (gm : Gm) (flt : CStr → List UInt8) (ftx : List UInt8 → CStr) :
    chunkText gm ftx UNIX_DATE (le32 18627) = .ok [] ∧ ∀ wp limit, fromString flt [] UNIX_DATE wp limit = .fail := by
  constructor
  · have h1 : rdI32 (le32 18627) = 18627 := by decide +kernel
    have h2 := C13_fails_on_leap_year_end.2
    simp [chunkText, h1, h2]
  · intro wp limit
    have : scanUnixDate [] = .fail := by decide +kernel
    simp [fromString, this]

/-! a timestamp with a blank before the hour -/

def gm2020 : Gm := fun _ => (2020, 1, 1)

example : timeText64 gm2020 1577855167008 = "2020-01-01  5:06:07.008".toList := by decide +kernel
example : TextSafe gm2020 UNIX_TIME64_MSEC (le64 1577855167008) := by
  have e : rdI64 (le64 1577855167008) = 1577855167008 := by decide +kernel
  refine ⟨by simp, ?_, ?_, ?_, ?_⟩
  · rw [e]; decide
  · rw [e]; decide
  · decide
  · rw [e]; unfold dayNumber gm2020; rw [daysToYear_closed, daysToYear_closed]; rfl
example : TextSafe gm2020 INT32_MILI (le32 (-12345)) := by simp only [TextSafe]; decide +kernel
example : TextSafe gm2020 INT64 (le64 (-9007199254740993)) := by simp only [TextSafe]; decide +kernel
example : chunkText gm2020 (fun _ => []) INT32_MILI (le32 (-12345)) = .ok "-12.345".toList := by decide +kernel

end BX
