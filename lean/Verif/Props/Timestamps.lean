import Verif.Props.Dates
/-! # C57: millisecond timestamps round trip through text -/
namespace BX
open BX.Spec

/-- a valid date lies inside its year -/
theorem day_in_year {y m d : Nat} (hv : ValidDate y m d) : daysToMonth y (m - 1) + d ≤ yearLen y := by
  have key : ∀ y', (y' = 4 ∨ y' = 1) → ∀ k < 12, daysToMonth y' k + monthLen y' (k + 1) ≤ yearLen y' := by
    rintro y' (rfl | rfl) <;> decide
  obtain ⟨h1, h2, _, h4⟩ := hv
  have : ∃ y', (y' = 4 ∨ y' = 1) ∧ (Leap y ↔ Leap y') := by
    by_cases h : Leap y
    · exact ⟨4, .inl rfl, by simp only [h, true_iff]; decide⟩
    · exact ⟨1, .inr rfl, by simp only [h, false_iff]; decide⟩
  obtain ⟨y', hy', hl⟩ := this
  have k := key y' hy' (m - 1) (by omega)
  rw [← daysToMonth_congr hl, ← monthLen_congr hl, show m - 1 + 1 = m by omega] at k
  have : yearLen y' = yearLen y := by unfold yearLen; simp [hl]
  omega

/-- a date is in or after the years up to which its day number reaches -/
theorem year_le {y m d y' : Nat} (hv : ValidDate y m d) (h : (daysToYear y' : Int) - daysToYear 1970 ≤ dayNumber y m d) :
    y' ≤ y := by
  rcases Nat.lt_or_ge y y' with hy | hy
  · exfalso
    have h1 : daysToYear (y+1) ≤ daysToYear y' := daysToYear_mono hy
    have h2 := day_in_year hv
    have h3 : daysToYear (y+1) = daysToYear y + yearLen y := rfl
    have := hv.2.2.1
    unfold dayNumber at h
    omega
  · exact hy

/-- C57, text. Every timestamp from 1970-01-01 to 9999-12-31, except those of the last day of a leap year (see
`C13_time_of_leap_year_end_ub`), is printed as YYYY-MM-DD hh:mm:ss.mmm of its date, time of day and milliseconds. -/
theorem C57_text_partial (v : Int) (h0 : 0 ≤ v) (h1 : v < (dayNumber 9999 12 31 + 1) * 86400000)
    (hx : ∀ y, Leap y → v / 86400000 ≠ dayNumber y 12 31) :
    ∃ (y m d h mi sec ms : Nat) (date hs mis ss mss : CStr), ValidDate y m d ∧ 1970 ≤ y ∧ ValidTime h mi sec ∧ ms < 1000 ∧
      v = secondsOf y m d h mi sec * 1000 + ms ∧ IsoDate y m d date ∧
      Numeral h hs ∧ hs.length = 2 ∧ Numeral mi mis ∧ mis.length = 2 ∧ Numeral sec ss ∧ ss.length = 2 ∧
      Numeral ms mss ∧ mss.length = 3 ∧
      unixTime642Str v = .ok (date ++ ' ' :: (hs ++ ':' :: (mis ++ ':' :: (ss ++ '.' :: mss)))) := by
  have e1 : dayNumber 9999 12 31 = 2932896 := by
    unfold dayNumber; rw [daysToYear_closed, daysToYear_closed]; rfl
  have e0 : dayNumber 0 1 1 = -719528 := by decide +kernel
  obtain ⟨y, m, d, hv, hn, hy, _, hok⟩ := C13_text_partial (v / 86400000) (by rw [e0]; omega) (by rw [e1] at h1 ⊢; omega)
  obtain ⟨s, hs, iso⟩ := hok (by rintro ⟨hl, rfl, rfl⟩; exact hx y hl hn.symm)
  have hy70 := year_le hv (y' := 1970) (by rw [hn]; omega)
  generalize ht : (v % 86400000).toNat = t
  have ht' : v % 86400000 = (t : Int) := by omega
  have htlt : t < 86400000 := by omega
  have n1 := padDec_numeral 2 (t / 3600000) (by omega) (by omega)
  have n2 := padDec_numeral 2 (t / 60000 % 60) (by omega) (by omega)
  have n3 := padDec_numeral 2 (t / 1000 % 60) (by omega) (by omega)
  have n4 := padDec_numeral 3 (t % 1000) (by omega) (by omega)
  refine ⟨y, m, d, t / 3600000, t / 60000 % 60, t / 1000 % 60, t % 1000, s, _, _, _, _, hv, hy70,
    ⟨by omega, by omega, by omega⟩, by omega, ?_, iso, n1.1, n1.2, n2.1, n2.2, n3.1, n3.2, n4.1, n4.2, ?_⟩
  · unfold secondsOf; rw [hn]; omega
  · unfold unixTime642Str
    rw [e1] at h1
    have hd : ofU 32 (toU 32 (Int.tdiv v 86400000)) = v / 86400000 := by
      rw [Int.tdiv_eq_ediv_of_nonneg h0]; unfold ofU toU; omega
    have hm : Int.tmod v 86400000 = (t : Int) := by rw [Int.tmod_eq_emod_of_nonneg h0, ht']
    simp only [hd, hs, hm]
    have c1 : Int.tmod (Int.tdiv (t:Int) 3600000) 24 = ((t / 3600000 : Nat) : Int) := by
      rw [Int.tdiv_eq_ediv_of_nonneg (by omega), Int.tmod_eq_emod_of_nonneg (by omega)]; omega
    have c2 : Int.tmod (Int.tdiv (t:Int) 60000) 60 = ((t / 60000 % 60 : Nat) : Int) := by
      rw [Int.tdiv_eq_ediv_of_nonneg (by omega), Int.tmod_eq_emod_of_nonneg (by omega)]; omega
    have c3 : Int.tmod (Int.tdiv (t:Int) 1000) 60 = ((t / 1000 % 60 : Nat) : Int) := by
      rw [Int.tdiv_eq_ediv_of_nonneg (by omega), Int.tmod_eq_emod_of_nonneg (by omega)]; omega
    have c4 : Int.tmod (t:Int) 1000 = ((t % 1000 : Nat) : Int) := by
      rw [Int.tmod_eq_emod_of_nonneg (by omega)]; omega
    rw [c1, c2, c3, c4, padInt_nat, padInt_nat, padInt_nat, padInt_nat]
    simp

/-- C57, round trip. What is printed for a timestamp before 2106-02-07 06:28:16 is read back as the same timestamp. -/
theorem C57_roundtrip_partial (v : Int) (h0 : 0 ≤ v) (h1 : v < 2 ^ 32 * 1000)
    (hx : ∀ y, Leap y → v / 86400000 ≠ dayNumber y 12 31) :
    ∃ s, unixTime642Str v = .ok s ∧ scanUnixTime64msec s = .ok v := by
  have e1 : dayNumber 9999 12 31 = 2932896 := by
    unfold dayNumber; rw [daysToYear_closed, daysToYear_closed]; rfl
  obtain ⟨y, m, d, h, mi, sec, ms, date, hs, mis, ss, mss, hv, hy, ht, hms, hval, iso, a1, a2, b1, b2, c1, c2, d1, d2, hp⟩ :=
    C57_text_partial v h0 (by rw [e1]; omega) hx
  refine ⟨_, hp, ?_⟩
  have := C14_milliseconds_partial y m d h mi sec ms date (hs ++ ':' :: (mis ++ ':' :: ss)) mss hv ht hy iso
    ⟨hs, mis, ss, a1, b1, c1, rfl⟩ d1 d2 [] (by omega)
  rw [List.append_nil, ← hval] at this
  rw [← this]
  simp

/-- Later timestamps are printed but not read back: the seconds are computed modulo 2^32. -/
theorem C57_after_2106_false : unixTime642Str 4294987200000 = .ok "2106-02-07 12:00:00.000".toList ∧
    scanUnixTime64msec "2106-02-07 12:00:00.000".toList = .ok 19904000 := by decide +kernel

/-- and those before 1970 with a time of day are printed with negative numbers -/
theorem C57_before_1970_false : unixTime642Str (-1) = .ok "1970-01-01 00:00:00.-01".toList := by decide +kernel

example : unixTime642Str 1709210096789 = .ok "2024-02-29 12:34:56.789".toList := by decide +kernel
example : (0:Int) ≤ 1709210096789 ∧ (1709210096789:Int) < 2 ^ 32 * 1000 ∧
    ∀ y, Leap y → (1709210096789:Int) / 86400000 ≠ dayNumber y 12 31 := by
  refine ⟨by decide, by decide, fun y hl h => ?_⟩
  have e2 := daysToYear_closed 2024
  have e3 := daysToYear_closed 2025
  have e4 := daysToYear_closed 1970
  have hle : y < 2024 ∨ y = 2024 ∨ 2024 < y := by omega
  rcases hle with hy | rfl | hy
  · have : daysToYear (y+1) ≤ daysToYear 2024 := daysToYear_mono hy
    have h3 := day_in_year (show ValidDate y 12 31 by
      refine ⟨by decide, by decide, by decide, ?_⟩; unfold monthLen; split <;> simp_all)
    have h4 : daysToYear (y+1) = daysToYear y + yearLen y := rfl
    unfold dayNumber at h; omega
  · revert h; unfold dayNumber; rw [e2, e4]; decide
  · have : daysToYear 2025 ≤ daysToYear y := daysToYear_mono hy
    unfold dayNumber at h; omega

end BX
