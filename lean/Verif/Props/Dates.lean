import Verif.Lemmas.Dates
import Verif.Spec.DateText
/-
Property theorems C12, C13, C14: dates and timestamps against the Gregorian calendar.
-/
namespace BX
open Spec

theorem valid_small {y m d : Nat} (h : ValidDate y m d) : d ≤ 31 := by
  have := h.2.2.2
  unfold monthLen at this
  split at this
  · split at this <;> omega
  · split at this <;> omega

theorem daysToMonth_le (y k : Nat) : daysToMonth y k ≤ 31 * k := by
  induction k with
  | zero => simp [daysToMonth]
  | succ k ih =>
    have : monthLen y (k+1) ≤ 31 := by
      unfold monthLen; split
      · split <;> omega
      · split <;> omega
    simp only [daysToMonth]; omega

theorem truncError_bound (y : Nat) : -1 ≤ truncError y ∧ truncError y ≤ 2 := by
  unfold truncError; split <;> split <;> split <;> omega

theorem dayNumber_bound (y m d : Nat) (hy : y ≤ 369689) (hv : ValidDate y m d) :
    -800000 ≤ dayNumber y m d ∧ dayNumber y m d ≤ 140000000 := by
  have h1 := daysToYear_closed y
  have h2 := daysToYear_closed 1970
  have h3 := daysToMonth_le y (m-1)
  have h4 := valid_small hv
  have h5 := hv.2.1
  have h6 := hv.2.2.1
  have h7 := daysToYear_mono (Nat.zero_le y)
  unfold dayNumber
  omega

/-! ### C12 -/

/-- C12, exactly what the code computes for every valid date of the years 0..369689: the true day number, wrong by
`truncError`, which is 0 from 1969 on. -/
theorem C12_exact_partial (y m d : Nat) (s rest : CStr) (hv : ValidDate y m d) (hy : y ≤ 369689)
    (hs : DateText y m d s) (hr : NoDigit rest) :
    scanUnixDate (s ++ rest) = .ok (dayNumber y m d + truncError y, rest) := by
  obtain ⟨ys, ms, ds, ⟨dy, vy⟩, ⟨dm, vm⟩, ⟨dd, vd⟩, rfl⟩ := hs
  have hd31 := valid_small hv
  have hb := dayNumber_bound y m d hy hv
  have he := truncError_bound y
  unfold scanUnixDate
  have := scanYMD_text ys ms ds rest dy dm dd hr (by omega) (by have := hv.1; have := hv.2.1; omega) (by omega)
  simp only [List.append_assoc, List.cons_append]
  rw [this, vy, vm, vd]
  simp only [Out.bind_ok]
  rw [if_neg (by omega), daysC_eq y m d hv.1 hv.2.1]
  rw [if_pos (by unfold isI32 INT_MIN INT_MAX; omega)]

/-- C12 for the years from 1969 on (up to the limit the code itself sets): the scanned number is the number of days
between 1970-01-01 and the date. Missing: the years before 1969, where the code is wrong (`C12_wrong_1968`). -/
theorem C12_day_number_partial (y m d : Nat) (s rest : CStr) (hv : ValidDate y m d) (h1 : 1969 ≤ y) (hy : y ≤ 369689)
    (hs : DateText y m d s) (hr : NoDigit rest) :
    scanUnixDate (s ++ rest) = .ok (dayNumber y m d, rest) := by
  have := C12_exact_partial y m d s rest hv hy hs hr
  rw [truncError_zero y h1, Int.add_zero] at this
  exact this

/-- The full statement of C12 is false: 1968-01-01 is 731 days before the epoch, the code says 730. -/
theorem C12_wrong_1968 : ValidDate 1968 1 1 ∧ DateText 1968 1 1 "1968-01-01".toList ∧
    scanUnixDate "1968-01-01".toList = .ok (-730, []) ∧ dayNumber 1968 1 1 = -731 := by
  refine ⟨by decide, ⟨"1968".toList, "01".toList, "01".toList, ⟨?_, ?_⟩, ⟨?_, ?_⟩, ⟨?_, ?_⟩, ?_⟩, ?_, ?_⟩ <;> decide +kernel

/-- C12: rejected texts. A month outside 1..12 or a year outside the supported range is refused. -/
theorem C12_rejects (ys ms ds rest : CStr) (dy : Digits ys) (dm : Digits ms) (dd : Digits ds) (hr : NoDigit rest)
    (vy : digitsValue ys ≤ 2147483647) (vm : digitsValue ms ≤ 2147483647) (vd : digitsValue ds ≤ 2147483647)
    (hbad : digitsValue ms = 0 ∨ 12 < digitsValue ms ∨ 369689 < digitsValue ys) :
    scanUnixDate (ys ++ '-' :: (ms ++ '-' :: (ds ++ rest))) = .fail := by
  have nd : ∀ r, NoDigit ('-' :: r) := by intro r; show isDig '-' = false; decide
  by_cases hm : 1 ≤ digitsValue ms ∧ digitsValue ms ≤ 12
  · unfold scanUnixDate
    rw [scanYMD_text ys ms ds rest dy dm dd hr vy hm vd]
    simp only [Out.bind_ok]
    rw [if_pos (by omega)]
  · unfold scanUnixDate scanYMD
    rw [scanInt_digits ys _ dy (nd _) vy]
    simp only [Out.bind_ok, expect, peek, List.headD_cons, if_true, List.tail_cons]
    rw [scanInt_digits ms _ dm (nd _) vm]
    simp only [Out.bind_ok]
    rw [if_pos (by omega)]
    rfl

example : ∃ s, DateText 2024 2 29 s ∧ ValidDate 2024 2 29 ∧ scanUnixDate s = .ok (19782, []) :=
  ⟨"2024-02-29".toList, ⟨"2024".toList, "02".toList, "29".toList, by unfold Numeral; decide +kernel,
    by unfold Numeral; decide +kernel, by unfold Numeral; decide +kernel, rfl⟩, by decide, by decide +kernel⟩

/-! ### C13 -/

theorem padDec_numeral (k n : Nat) (hk : 0 < k) (h : n < 10 ^ k) : Numeral n (padDec k n) ∧ (padDec k n).length = k := by
  have hl := dec_length_le n k hk h
  refine ⟨⟨⟨?_, ?_⟩, ?_⟩, ?_⟩
  · unfold padDec; simp [dec_ne_nil]
  · intro c hc
    unfold padDec at hc
    rcases List.mem_append.mp hc with hc | hc
    · have := List.eq_of_mem_replicate hc; subst this; decide
    · exact dec_digits n c hc
  · unfold padDec
    rw [digitsValue_append, dec_value]
    have : ∀ j, digitsValue (List.replicate j '0') = 0 := by
      intro j; induction j with
      | zero => rfl
      | succ j ih => simp [List.replicate_succ, digitsValue, ih]
    rw [this]; omega
  · unfold padDec; simp; omega

theorem padInt_nat (k n : Nat) : padInt k (n : Int) = padDec k n := by
  unfold padInt
  rw [if_neg (by omega)]; simp

/-- the tables agree with the calendar, common years -/
theorem table_common : ∀ v < 365, 1 ≤ DAY2MONTH.getD v 0 ∧ DAY2MONTH.getD v 0 ≤ 12 ∧
    MONTH_OFFSET.getD (DAY2MONTH.getD v 0 - 1) 0 ≤ v ∧
    1 + v - MONTH_OFFSET.getD (DAY2MONTH.getD v 0 - 1) 0 ≤ monthLen 1 (DAY2MONTH.getD v 0) := by decide +kernel
theorem table_leap : ∀ v < 366, 1 ≤ DAY2MONTH_LEAP.getD v 0 ∧ DAY2MONTH_LEAP.getD v 0 ≤ 12 ∧
    LEAP_MONTH_OFFSET.getD (DAY2MONTH_LEAP.getD v 0 - 1) 0 ≤ v ∧
    1 + v - LEAP_MONTH_OFFSET.getD (DAY2MONTH_LEAP.getD v 0 - 1) 0 ≤ monthLen 4 (DAY2MONTH_LEAP.getD v 0) := by
  decide +kernel

theorem monthLen_congr {y y' : Nat} (h : Leap y ↔ Leap y') (m : Nat) : monthLen y m = monthLen y' m := by
  unfold monthLen; simp [h]
theorem daysToMonth_congr {y y' : Nat} (h : Leap y ↔ Leap y') (k : Nat) : daysToMonth y k = daysToMonth y' k := by
  induction k with
  | zero => rfl
  | succ k ih => simp [daysToMonth, ih, monthLen_congr h]
theorem offsets_common : ∀ k < 12, MONTH_OFFSET.getD k 0 = daysToMonth 1 k := by decide
theorem offsets_leap : ∀ k < 12, LEAP_MONTH_OFFSET.getD k 0 = daysToMonth 4 k := by decide

set_option maxRecDepth 4000 in
/-- what `splitDate` computes -/
theorem splitDate_spec (n : Int) (h0 : -719528 ≤ n) (h1 : n ≤ 2932896) :
    ∃ (y : Nat) (leap : Bool) (v : Nat), splitDate n = ((y : Int), leap, (v : Int)) ∧ y ≤ 9999 ∧
      (daysToYear y : Int) + v - daysToYear 1970 = n ∧ v < 366 ∧
      ((leap = decide (Leap y) ∧ (leap = false → v < 365)) ∨ (leap = false ∧ v = 0)) := by
  have h1970 : (daysToYear 1970 : Int) = 719528 := by rw [daysToYear_closed]; rfl
  rw [h1970]
  unfold splitDate
  simp only []
  -- the 400-year cycle
  obtain ⟨k, hk, hk0, hk1⟩ : ∃ k : Int, (if n - 10957 < 0 then Int.tdiv (n - 10957) 146097 - 1 else Int.tdiv (n - 10957) 146097) = k ∧
      0 ≤ n - 10957 - k * 146097 ∧ n - 10957 - k * 146097 ≤ 146097 ∧ (n - 10957 - k * 146097 = 146097 → n - 10957 < 0) := by
    split
    · rename_i hneg
      refine ⟨_, rfl, ?_⟩
      have := tdiv_of_neg (n - 10957) 146097 (by omega) hneg
      rw [show ((146097:Nat):Int) = 146097 from rfl] at this
      rw [this]
      split <;> omega
    · rename_i hpos
      refine ⟨_, rfl, ?_⟩
      rw [tdiv_nonneg_eq _ _ (by omega)]
      omega
  rw [hk]
  generalize hV : n - 10957 - k * 146097 = V at *
  have hkr : -6 ≤ k ∧ k ≤ 19 := by omega
  by_cases c1 : V < 366
  · rw [if_pos c1]
    refine ⟨(2000 + k * 400).toNat, true, V.toNat, ?_, by omega, ?_, by omega, .inl ⟨?_, by simp⟩⟩
    · simp only [Prod.mk.injEq, true_and]; omega
    · rw [daysToYear_closed]; omega
    · symm; rw [decide_eq_true_iff]; unfold Leap; omega
  · rw [if_neg c1]
    rw [tdiv_nonneg_eq _ _ (by omega)]
    obtain ⟨c, hc⟩ : ∃ c, (V - 1) / 36524 = c := ⟨_, rfl⟩
    rw [hc]
    have hcr : c = 0 ∨ c = 1 ∨ c = 2 ∨ c = 3 ∨ c = 4 := by omega
    by_cases c2 : V - 1 - c * 36524 < 365
    · rw [if_pos c2]
      refine ⟨(2000 + k * 400 + c * 100).toNat, false, (V - 1 - c * 36524).toNat, ?_, ?_, ?_, ?_, ?_⟩
      · simp only [Prod.mk.injEq, true_and]
        omega
      · omega
      · rw [daysToYear_closed]; rcases hcr with rfl|rfl|rfl|rfl|rfl <;> omega
      · omega
      · rcases hcr with rfl|rfl|rfl|rfl|rfl
        · omega
        · left; refine ⟨?_, by omega⟩; symm; rw [decide_eq_false_iff_not]; unfold Leap; omega
        · left; refine ⟨?_, by omega⟩; symm; rw [decide_eq_false_iff_not]; unfold Leap; omega
        · left; refine ⟨?_, by omega⟩; symm; rw [decide_eq_false_iff_not]; unfold Leap; omega
        · right; exact ⟨rfl, by omega⟩
    · rw [if_neg c2]
      have hcr : c = 0 ∨ c = 1 ∨ c = 2 ∨ c = 3 := by omega
      generalize hW : V - 1 - c * 36524 + 1 = W at *
      have hWr : 366 ≤ W ∧ W ≤ 36524 := by omega
      rw [tdiv_nonneg_eq _ _ (by omega)]
      obtain ⟨q, hq⟩ : ∃ q, W / 1461 = q := ⟨_, rfl⟩
      rw [hq]
      have hqr : 0 ≤ q ∧ q ≤ 24 := by omega
      by_cases c3 : W - q * 1461 < 366
      · rw [if_pos c3]
        have hq1 : 1 ≤ q := by omega
        refine ⟨(2000 + k * 400 + c * 100 + q * 4).toNat, true, (W - q * 1461).toNat, ?_, ?_, ?_, ?_, .inl ⟨?_, by simp⟩⟩
        · simp only [Prod.mk.injEq, true_and]; omega
        · omega
        · rw [daysToYear_closed]
          generalize hY : (2000 + k * 400 + c * 100 + q * 4).toNat = Y
          have hY' : (Y : Int) = 2000 + k * 400 + c * 100 + q * 4 := by omega
          have q1 : ((Y:Int) + 3) / 4 = 500 + 100 * k + 25 * c + q := by omega
          have q2 : ((Y:Int) + 99) / 100 = 21 + 4 * k + c := by omega
          have q3 : ((Y:Int) + 399) / 400 = 6 + k := by omega
          rw [q1, q2, q3, hY']; omega
        · omega
        · symm; rw [decide_eq_true_iff]; unfold Leap; left
          rcases hcr with rfl|rfl|rfl|rfl <;> omega
      · rw [if_neg c3]
        rw [tdiv_nonneg_eq _ _ (by omega)]
        obtain ⟨z, hz⟩ : ∃ z, (W - q * 1461 - 1) / 365 = z := ⟨_, rfl⟩
        rw [hz]
        have hzr : z = 1 ∨ z = 2 ∨ z = 3 := by omega
        refine ⟨(2000 + k * 400 + c * 100 + q * 4 + z).toNat, false, (W - q * 1461 - 1 - z * 365).toNat, ?_, ?_, ?_, ?_, .inl ⟨?_, by omega⟩⟩
        · simp only [Prod.mk.injEq, true_and]; omega
        · omega
        · rw [daysToYear_closed]
          generalize hY : (2000 + k * 400 + c * 100 + q * 4 + z).toNat = Y
          have hY' : (Y : Int) = 2000 + k * 400 + c * 100 + q * 4 + z := by omega
          have q1 : ((Y:Int) + 3) / 4 = 500 + 100 * k + 25 * c + q + 1 := by omega
          have q2 : ((Y:Int) + 99) / 100 = 21 + 4 * k + c := by omega
          have q3 : ((Y:Int) + 399) / 400 = 6 + k := by omega
          rw [q1, q2, q3, hY']; omega
        · omega
        · symm; rw [decide_eq_false_iff_not]; unfold Leap
          rcases hzr with rfl|rfl|rfl <;> omega

/-- C13 (the text): for every day from 0000-01-01 to 9999-12-31 the printed text is the ISO text of the calendar date
with that day number, except on 31 December of leap years, where printing fails. -/
theorem C13_text_partial (n : Int) (h0 : dayNumber 0 1 1 ≤ n) (h1 : n ≤ dayNumber 9999 12 31) :
    ∃ y m d, ValidDate y m d ∧ dayNumber y m d = n ∧ y ≤ 9999 ∧
      ((Leap y ∧ m = 12 ∧ d = 31) → unixDate2Str n = .fail) ∧
      (¬(Leap y ∧ m = 12 ∧ d = 31) → ∃ s, unixDate2Str n = .ok s ∧ IsoDate y m d s) := by
  have e0 : dayNumber 0 1 1 = -719528 := by decide +kernel
  have e1 : dayNumber 9999 12 31 = 2932896 := by
    unfold dayNumber; rw [daysToYear_closed, daysToYear_closed]; rfl
  rw [e0] at h0; rw [e1] at h1
  obtain ⟨y, leap, v, hs, hy, hn, hv, hl⟩ := splitDate_spec n h0 h1
  have hnub : ¬ n < INT_MIN + 10957 := by unfold INT_MIN; omega
  -- the text printed for month and day
  have iso : ∀ m d : Nat, m ≤ 12 → d ≤ 31 → IsoDate y m d (padInt 4 (y:Int) ++ '-' :: padInt 2 (m:Int) ++ '-' :: padInt 2 (d:Int)) := by
    intro m d hm hd
    rw [padInt_nat, padInt_nat, padInt_nat]
    have a := padDec_numeral 4 y (by omega) (by omega)
    have b := padDec_numeral 2 m (by omega) (by omega)
    have c := padDec_numeral 2 d (by omega) (by omega)
    exact ⟨_, _, _, a.1, a.2, b.1, b.2, c.1, c.2, by simp⟩
  by_cases hL : leap = true
  · -- leap year
    subst hL
    have hLy : Leap y := by
      rcases hl with hl | hl
      · exact decide_eq_true_iff.mp hl.1.symm
      · cases hl.1
    have hcong : Leap y ↔ Leap 4 := ⟨fun _ => by decide, fun _ => hLy⟩
    have ht := table_leap v hv
    obtain ⟨t1, t2, t3, t4⟩ := ht
    have ho := offsets_leap (DAY2MONTH_LEAP.getD v 0 - 1) (by omega)
    have h31 : monthLen 4 (DAY2MONTH_LEAP.getD v 0) ≤ 31 := by unfold monthLen; split; · split <;> omega
                                                               · split <;> omega
    refine ⟨y, DAY2MONTH_LEAP.getD v 0, 1 + v - LEAP_MONTH_OFFSET.getD (DAY2MONTH_LEAP.getD v 0 - 1) 0, ⟨t1, t2, by omega, ?_⟩, ?_, hy, ?_, ?_⟩
    · rw [monthLen_congr hcong]; exact t4
    · unfold dayNumber; rw [daysToMonth_congr hcong, ← ho]; omega
    · rintro ⟨_, hm, hd⟩
      have : v = 365 := by
        rw [hm] at hd
        simp [LEAP_MONTH_OFFSET] at hd
        omega
      unfold unixDate2Str
      rw [if_neg hnub, hs]
      simp only [if_true]
      rw [if_neg (by omega)]
    · intro hne
      have hv' : v < 365 := by
        rcases Nat.lt_or_ge v 365 with h | h
        · exact h
        · exfalso; apply hne
          have : v = 365 := by omega
          subst this
          exact ⟨hLy, by decide +kernel, by decide +kernel⟩
      refine ⟨_, ?_, iso _ _ t2 (by omega)⟩
      unfold unixDate2Str
      rw [if_neg hnub, hs]
      simp only [if_true]
      rw [if_pos (by omega), Int.toNat_natCast]
      have hcast : (1 + (v:Int) - ((LEAP_MONTH_OFFSET.getD (DAY2MONTH_LEAP.getD v 0 - 1) 0 : Nat) : Int)) =
        ((1 + v - LEAP_MONTH_OFFSET.getD (DAY2MONTH_LEAP.getD v 0 - 1) 0 : Nat) : Int) := by omega
      rw [hcast]
  · simp only [Bool.not_eq_true] at hL
    subst hL
    have hv' : v < 365 := by rcases hl with hl | hl; · exact hl.2 rfl
                             · omega
    have hn365 : ¬ ((v:Int) = 365) := by omega
    obtain ⟨t1, t2, t3, t4⟩ := table_common v hv'
    have h31 : monthLen 1 (DAY2MONTH.getD v 0) ≤ 31 := by unfold monthLen; split; · split <;> omega
                                                          · split <;> omega
    have hprint : unixDate2Str n = .ok (padInt 4 (y:Int) ++ '-' :: padInt 2 ((DAY2MONTH.getD v 0 : Nat):Int) ++ '-' ::
        padInt 2 ((1 + v - MONTH_OFFSET.getD (DAY2MONTH.getD v 0 - 1) 0 : Nat):Int)) := by
      unfold unixDate2Str
      rw [if_neg hnub, hs]
      simp only [Bool.false_eq_true, if_false]
      rw [if_pos (by omega), if_neg hn365, Int.toNat_natCast]
      have hcast : (1 + (v:Int) - ((MONTH_OFFSET.getD (DAY2MONTH.getD v 0 - 1) 0 : Nat) : Int)) =
        ((1 + v - MONTH_OFFSET.getD (DAY2MONTH.getD v 0 - 1) 0 : Nat) : Int) := by omega
      rw [hcast]
    rcases hl with ⟨hl, _⟩ | ⟨_, h0⟩
    · have hNy : ¬ Leap y := decide_eq_false_iff_not.mp hl.symm
      have hcong : Leap y ↔ Leap 1 := ⟨fun h => absurd h hNy, fun h => absurd h (by decide)⟩
      have ho := offsets_common (DAY2MONTH.getD v 0 - 1) (by omega)
      refine ⟨y, DAY2MONTH.getD v 0, 1 + v - MONTH_OFFSET.getD (DAY2MONTH.getD v 0 - 1) 0, ⟨t1, t2, by omega, ?_⟩, ?_, hy, ?_, ?_⟩
      · rw [monthLen_congr hcong]; exact t4
      · unfold dayNumber; rw [daysToMonth_congr hcong, ← ho]; omega
      · rintro ⟨h, _⟩; exact absurd h hNy
      · intro _; exact ⟨_, hprint, iso _ _ t2 (by omega)⟩
    · -- 1 January reached through the common branch
      subst h0
      refine ⟨y, 1, 1, ⟨by omega, by omega, by omega, ?_⟩, ?_, hy, by rintro ⟨_, h, _⟩; omega, fun _ => ⟨_, hprint, ?_⟩⟩
      · unfold monthLen; simp
      · unfold dayNumber; simp [daysToMonth]; omega
      · exact iso 1 1 (by omega) (by omega)

/-- C13 (round trip): for every day from 1970-01-01 to 9999-12-31 other than a 31 December of a leap year the printed
text scans back to the same day number. -/
theorem C13_roundtrip_partial (n : Int) (h0 : 0 ≤ n) (h1 : n ≤ dayNumber 9999 12 31)
    (hx : ∀ y, Leap y → n ≠ dayNumber y 12 31) :
    ∃ s, unixDate2Str n = .ok s ∧ scanUnixDate s = .ok (n, []) := by
  obtain ⟨y, m, d, hv, hn, hy, _, hok⟩ := C13_text_partial n (Int.le_trans (by decide +kernel) h0) h1
  obtain ⟨s, hs, ys, ms, ds, a, _, b, _, c, _, rfl⟩ := hok (by
    rintro ⟨hl, rfl, rfl⟩; exact hx y hl hn.symm)
  refine ⟨_, hs, ?_⟩
  have hy69 : 1969 ≤ y := by
    rcases Nat.lt_or_ge y 1969 with h | h
    · exfalso
      have h2 := daysToYear_mono (show y + 1 ≤ 1969 by omega)
      have h3 : daysToYear (y+1) = daysToYear y + yearLen y := rfl
      have h4 : 365 ≤ yearLen y := by unfold yearLen; split <;> omega
      have h5 := daysToYear_closed 1969
      have h6 := daysToYear_closed 1970
      have h7 := daysToMonth_le y (m-1)
      have := valid_small hv
      have := hv.2.1
      unfold dayNumber at hn
      omega
    · exact h
  have := C12_day_number_partial y m d _ [] hv hy69 (by omega) ⟨ys, ms, ds, a, b, c, rfl⟩ (by decide)
  rw [List.append_nil, hn] at this
  exact this

/-- The full statement of C13 is false: 2020-12-31 (day 18627) has no text. -/
theorem C13_fails_on_leap_year_end : dayNumber 2020 12 31 = 18627 ∧ unixDate2Str 18627 = .fail := by
  constructor
  · unfold dayNumber; rw [daysToYear_closed, daysToYear_closed]; rfl
  · decide +kernel

/-- … and printing a timestamp of such a day is undefined behaviour (`strlen` of a null pointer). -/
theorem C13_time_of_leap_year_end_ub : unixTime642Str (18627 * 86400000) = .ub := by decide +kernel

example : unixDate2Str 19782 = .ok "2024-02-29".toList ∧ unixDate2Str 0 = .ok "1970-01-01".toList := by decide +kernel

/-! ### C14 -/

theorem MAX_DAY_eq : MAX_DAY = 49710 := by decide +kernel

/-- the date part of a timestamp -/
theorem unixTime_date (y m d : Nat) (s rest : CStr) (hv : ValidDate y m d) (hy : 1970 ≤ y)
    (hs : DateText y m d s) (hr : NoDigit rest) (hmax : dayNumber y m d ≤ 49710) :
    y ≤ 2200 ∧ scanYMD (s ++ rest) = .ok ((y:Int), (m:Int), (d:Int), rest) ∧
      ((toU 32 (daysC y m d) : Nat) : Int) = dayNumber y m d := by
  obtain ⟨ys, ms, ds, ⟨dy, vy⟩, ⟨dm, vm⟩, ⟨dd, vd⟩, rfl⟩ := hs
  have hd31 := valid_small hv
  have hnn := dayNumber_nonneg y m d hy hv.2.2.1
  have hyb : y ≤ 2200 := by
    rcases Nat.lt_or_ge 2200 y with h | h
    · have := daysToYear_mono (show 2200 ≤ y by omega)
      have h5 := daysToYear_closed 2200
      have h6 := daysToYear_closed 1970
      have := hv.2.2.1
      unfold dayNumber at hmax; omega
    · exact h
  refine ⟨hyb, ?_, ?_⟩
  · have := scanYMD_text ys ms ds rest dy dm dd hr (by omega) (by have := hv.1; have := hv.2.1; omega) (by omega)
    simp only [List.append_assoc, List.cons_append]
    rw [this, vy, vm, vd]
  · rw [daysC_eq y m d hv.1 hv.2.1, truncError_zero y (by omega), Int.add_zero]
    exact toU32_of_lt _ hnn (by omega)

/-- C14. For every valid date and time from 1970 on whose number of seconds fits 32 bits, `ScanUnixTime` returns exactly
that number and leaves the cursor behind the text. Missing: timestamps that do not fit (`C14_wraps_after_2106`). -/
theorem C14_seconds_partial (y m d h mi sec : Nat) (date time rest : CStr) (sep : Char) (hsep : sep = ' ' ∨ sep = 'T')
    (hv : ValidDate y m d) (ht : ValidTime h mi sec) (hy : 1970 ≤ y) (hd : DateText y m d date)
    (htm : TimeText h mi sec time) (hr : NoDigit rest) (hfit : secondsOf y m d h mi sec < 2 ^ 32) :
    ∃ v, scanUnixTime (date ++ sep :: (time ++ rest)) = .ok (v, rest) ∧ (v : Int) = secondsOf y m d h mi sec := by
  obtain ⟨t1, t2, t3⟩ := ht
  have hnn := dayNumber_nonneg y m d hy hv.2.2.1
  unfold secondsOf at hfit ⊢
  have hmax : dayNumber y m d ≤ 49710 := by omega
  have nsep : NoDigit (sep :: (time ++ rest)) := by
    show isDig sep = false
    rcases hsep with rfl | rfl <;> decide
  obtain ⟨hyb, hscan, hdays⟩ := unixTime_date y m d date _ hv hy hd nsep hmax
  obtain ⟨hs, ms, ss, ⟨dh, vh⟩, ⟨dm, vm⟩, ⟨dss, vs⟩, rfl⟩ := htm
  have nd : ∀ r, NoDigit (':' :: r) := by intro r; show isDig ':' = false; decide
  unfold scanUnixTime
  rw [hscan]
  simp only [Out.bind_ok]
  rw [if_neg (by omega), if_neg (by unfold isI32 INT_MIN INT_MAX; omega), if_neg (by rw [MAX_DAY_eq]; omega)]
  rw [if_neg (by simp), if_neg (by rcases hsep with rfl | rfl <;> simp [peek])]
  simp only [List.tail_cons, List.append_assoc, List.cons_append]
  rw [scanInt_digits hs _ dh (nd _) (by omega)]
  simp only [Out.bind_ok]
  rw [if_neg (by unfold isI32 INT_MIN INT_MAX; omega), if_neg (by simp)]
  simp only [expect, peek, List.headD_cons, if_true, Out.bind_ok, List.tail_cons]
  rw [scanInt_digits ms _ dm (nd _) (by omega)]
  simp only [Out.bind_ok]
  rw [if_neg (by unfold isI32 INT_MIN INT_MAX; omega)]
  simp only [List.headD_cons, if_true, Out.bind_ok, List.tail_cons]
  rw [scanInt_digits ss rest dss hr (by omega)]
  simp only [Out.bind_ok]
  have e1 := toU32_of_lt (((toU 32 (daysC y m d) * 86400 : Nat) : Int) + (digitsValue hs : Int) * 3600) (by omega) (by omega)
  have e2 := toU32_of_lt (((toU 32 (((toU 32 (daysC y m d) * 86400 : Nat) : Int) + (digitsValue hs : Int) * 3600) : Nat) : Int) + (digitsValue ms : Int) * 60) (by omega) (by omega)
  refine ⟨_, rfl, ?_⟩
  have e3 := toU32_of_lt (((toU 32 (((toU 32 (((toU 32 (daysC y m d) * 86400 : Nat) : Int) + (digitsValue hs : Int) * 3600) : Nat) : Int) + (digitsValue ms : Int) * 60) : Nat) : Int) + (digitsValue ss : Int)) (by omega) (by omega)
  rw [e3]; omega

/-- C14: a date alone denotes its first second. -/
theorem C14_date_only_partial (y m d : Nat) (date : CStr) (hv : ValidDate y m d) (hy : 1970 ≤ y) (hd : DateText y m d date)
    (hmax : dayNumber y m d ≤ 49710) :
    ∃ v, scanUnixTime date = .ok (v, []) ∧ (v : Int) = secondsOf y m d 0 0 0 := by
  obtain ⟨hyb, hscan, hdays⟩ := unixTime_date y m d date [] hv hy hd (by decide) hmax
  rw [List.append_nil] at hscan
  unfold scanUnixTime
  rw [hscan]
  simp only [Out.bind_ok]
  rw [if_neg (by omega), if_neg (by unfold isI32 INT_MIN INT_MAX; omega), if_neg (by rw [MAX_DAY_eq]; omega)]
  refine ⟨_, rfl, ?_⟩
  unfold secondsOf; omega

/-- C14: dates before 1970 and dates whose day exceeds 32-bit seconds are refused, not misread. -/
theorem C14_rejects_partial (y m d : Nat) (date rest : CStr) (hv : ValidDate y m d) (hd : DateText y m d date)
    (hr : NoDigit rest) (hy : y ≤ 5000000) (hbad : y < 1970 ∨ 49710 < dayNumber y m d) :
    scanUnixTime (date ++ rest) = .fail := by
  obtain ⟨ys, ms, ds, ⟨dy, vy⟩, ⟨dm, vm⟩, ⟨dd, vd⟩, rfl⟩ := hd
  have hd31 := valid_small hv
  have hscan := scanYMD_text ys ms ds rest dy dm dd hr (by omega) (by have := hv.1; have := hv.2.1; omega) (by omega)
  unfold scanUnixTime
  simp only [List.append_assoc, List.cons_append]
  rw [hscan, vy, vm, vd]
  simp only [Out.bind_ok]
  by_cases h70 : y < 1970
  · rw [if_pos (by omega)]
  · rw [if_neg (by omega), if_neg (by unfold isI32 INT_MIN INT_MAX; omega)]
    rw [daysC_eq y m d hv.1 hv.2.1, truncError_zero y (by omega), Int.add_zero]
    have h1 := daysToYear_closed y
    have h3 := daysToMonth_le y (m-1)
    have h5 := hv.2.1
    have h6 := hv.2.2.1
    have hub : dayNumber y m d < 4294967296 := by unfold dayNumber; omega
    have := toU32_of_lt (dayNumber y m d) (dayNumber_nonneg y m d (by omega) h6) hub
    rw [if_pos (by rw [MAX_DAY_eq]; omega)]

/-- The full statement of C14 is false: noon of 2106-02-07 is accepted and wraps around to 1970. -/
theorem C14_wraps_after_2106 : ValidDate 2106 2 7 ∧ ValidTime 12 0 0 ∧
    scanUnixTime "2106-02-07 12:00:00".toList = .ok (19904, []) ∧ secondsOf 2106 2 7 12 0 0 = 4294987200 := by
  refine ⟨by decide, by decide, by decide +kernel, ?_⟩
  unfold secondsOf dayNumber; rw [daysToYear_closed, daysToYear_closed]; rfl

/-- C14, milliseconds: date, blank, time, '.', three digits. -/
theorem C14_milliseconds_partial (y m d h mi sec ms : Nat) (date time : CStr) (mss : CStr)
    (hv : ValidDate y m d) (ht : ValidTime h mi sec) (hy : 1970 ≤ y) (hd : IsoDate y m d date)
    (htm : TimeText h mi sec time) (hms : Numeral ms mss) (hl : mss.length = 3) (rest : CStr)
    (hfit : secondsOf y m d h mi sec < 2 ^ 32) :
    scanUnixTime64msec (date ++ ' ' :: (time ++ '.' :: (mss ++ rest))) = .ok (secondsOf y m d h mi sec * 1000 + ms) := by
  obtain ⟨ys, mos, ds, a, la, b, lb, c, lc, rfl⟩ := hd
  obtain ⟨v, hscan, hval⟩ := C14_seconds_partial y m d h mi sec _ time ('.' :: (mss ++ rest)) ' ' (.inl rfl) hv ht hy
    ⟨ys, mos, ds, a, b, c, rfl⟩ htm (by show isDig '.' = false; decide) hfit
  obtain ⟨x1, x2, x3, rfl⟩ : ∃ x1 x2 x3, mss = [x1, x2, x3] := by
    match mss, hl with
    | [x1, x2, x3], _ => exact ⟨x1, x2, x3, rfl⟩
  unfold scanUnixTime64msec
  rw [hscan]
  simp only [Out.bind_ok, peek, List.headD_cons, ne_eq, not_true_eq_false, if_false, List.tail_cons, List.cons_append, List.nil_append]
  have d1 := hms.1.2 x1 (by simp)
  have d2 := hms.1.2 x2 (by simp)
  have d3 := hms.1.2 x3 (by simp)
  rw [if_pos ⟨d1, d2, d3⟩]
  have hz : ∀ p, zoneShift (ys ++ '-' :: (mos ++ '-' :: ds) ++ ' ' :: (time ++ '.' :: x1 :: x2 :: x3 :: rest)) v p = .ok v := by
    intro p
    unfold zoneShift
    rw [if_neg]
    have hlen : (ys ++ '-' :: (mos ++ '-' :: ds)).length = 10 := by simp [la, lb, lc]
    unfold cAt
    rw [List.getD_eq_getElem?_getD, List.getElem?_append_right (by omega), hlen]
    simp
  rw [hz]
  simp only [Out.bind_ok]
  have hvv := hms.2
  simp only [digitsValue, List.length_cons, List.length_nil] at hvv
  simp only [digVal]
  rw [hval]
  congr 1
  omega

/-- C14, milliseconds with a time zone: 'T' separator, optional further decimals, 'Z' or an offset; the offset east of
Greenwich is subtracted. -/
theorem C14_zone_partial (y m d h mi sec ms zh zm : Nat) (date time mss more zhs zms rest : CStr) (east : Bool)
    (hv : ValidDate y m d) (ht : ValidTime h mi sec) (hy : 1970 ≤ y) (hd : IsoDate y m d date)
    (htm : TimeText h mi sec time) (hms : Numeral ms mss) (hl : mss.length = 3) (hmore : ∀ c ∈ more, isDig c = true)
    (hzh : Numeral zh zhs) (hzm : Numeral zm zms) (hzhb : zh < 24) (hzmb : zm < 60) (hr : NoDigit rest)
    (hfit : secondsOf y m d h mi sec < 2 ^ 32)
    (hfit2 : 0 ≤ secondsOf y m d h mi sec + (if east then -1 else 1) * (zh * 3600 + zm * 60))
    (hfit3 : secondsOf y m d h mi sec + (if east then -1 else 1) * (zh * 3600 + zm * 60) < 2 ^ 32) :
    scanUnixTime64msec (date ++ 'T' :: (time ++ '.' :: (mss ++ (more ++ (if east then '+' else '-') :: (zhs ++ ':' :: (zms ++ rest)))))) =
      .ok ((secondsOf y m d h mi sec + (if east then -1 else 1) * (zh * 3600 + zm * 60)) * 1000 + ms) := by
  obtain ⟨ys, mos, ds, a, la, b, lb, c, lc, rfl⟩ := hd
  obtain ⟨x1, x2, x3, rfl⟩ : ∃ x1 x2 x3, mss = [x1, x2, x3] := by
    match mss, hl with
    | [x1, x2, x3], _ => exact ⟨x1, x2, x3, rfl⟩
  obtain ⟨v, hscan, hval⟩ := C14_seconds_partial y m d h mi sec _ time
    ('.' :: ([x1, x2, x3] ++ (more ++ (if east then '+' else '-') :: (zhs ++ ':' :: (zms ++ rest))))) 'T' (.inr rfl) hv ht hy
    ⟨ys, mos, ds, a, b, c, rfl⟩ htm (by show isDig '.' = false; decide) hfit
  unfold scanUnixTime64msec
  rw [hscan]
  simp only [Out.bind_ok, peek, List.headD_cons, ne_eq, not_true_eq_false, if_false, List.tail_cons, List.cons_append, List.nil_append]
  rw [if_pos ⟨hms.1.2 x1 (by simp), hms.1.2 x2 (by simp), hms.1.2 x3 (by simp)⟩]
  have hz : ∀ T, zoneShift (ys ++ '-' :: (mos ++ '-' :: ds) ++ 'T' :: T) v
      (more ++ (if east then '+' else '-') :: (zhs ++ ':' :: (zms ++ rest))) =
      .ok (toU 32 ((v : Int) + (if east then -1 else 1) * (zh * 3600 + zm * 60))) := by
    intro T
    unfold zoneShift
    rw [if_pos]
    · have hdrop : (more ++ (if east then '+' else '-') :: (zhs ++ ':' :: (zms ++ rest))).dropWhile isDig =
          (if east then '+' else '-') :: (zhs ++ ':' :: (zms ++ rest)) := by
        rw [List.dropWhile_append_of_pos hmore]
        cases east
        · rw [List.dropWhile_cons_of_neg]; decide
        · rw [List.dropWhile_cons_of_neg]; decide
      rw [hdrop]
      have hp : peek ((if east then '+' else '-') :: (zhs ++ ':' :: (zms ++ rest))) = (if east then '+' else '-') := rfl
      simp only [hp, List.tail_cons]
      rw [if_neg (by cases east <;> decide), if_pos (by cases east <;> decide)]
      rw [scanInt_digits zhs _ hzh.1 (by show isDig ':' = false; decide) (by have := hzh.2; omega)]
      simp only [peek, List.headD_cons, ne_eq, not_true_eq_false, if_false, List.tail_cons]
      rw [scanInt_digits zms rest hzm.1 hr (by have := hzm.2; omega)]
      simp only [hzh.2, hzm.2]
      rw [if_pos (by unfold isI32 INT_MIN INT_MAX; omega)]
      cases east <;> simp
    · have hlen : (ys ++ '-' :: (mos ++ '-' :: ds)).length = 10 := by simp [la, lb, lc]
      unfold cAt
      rw [List.getD_eq_getElem?_getD, List.getElem?_append_right (by omega), hlen]
      simp
  rw [hz]
  simp only [Out.bind_ok]
  have hvv := hms.2
  simp only [digitsValue, List.length_cons, List.length_nil] at hvv
  simp only [digVal]
  rw [hval, toU32_of_lt _ hfit2 (by simpa using hfit3)]
  congr 1
  omega

example : scanUnixTime64msec "2017-01-15T13:38:00.2505+01:30".toList = .ok 1484482080250 ∧
    scanUnixTime "2017-01-15 13:38:00".toList = .ok (1484487480, []) := by decide +kernel

end BX
