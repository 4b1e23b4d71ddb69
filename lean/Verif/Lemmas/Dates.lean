import Verif.Lemmas.Text
import Verif.Model.Dates
import Verif.Spec.Calendar
namespace BX
open Spec

/-- scanning a digit run at the cursor -/
theorem scanInt_digits (ds rest : CStr) (hd : Digits ds) (hr : NoDigit rest) (hv : digitsValue ds ≤ 2147483647) :
    scanInt (ds ++ rest) = .ok ((digitsValue ds : Int), rest) := by
  have := scanSigned_run 2147483647 [] ds rest false (by intro c hc; simp at hc) hd hr
  simpa [scanInt, hv] using this

theorem tdiv_nonneg_eq (a b : Int) (h : 0 ≤ a) : Int.tdiv a b = a / b := Int.tdiv_eq_ediv_of_nonneg h

theorem daysToYear_closed (y : Nat) :
    (daysToYear y : Int) = 365 * y + (y + 3) / 4 - (y + 99) / 100 + (y + 399) / 400 := by
  induction y with
  | zero => rfl
  | succ y ih =>
    have hstep : (daysToYear (y+1) : Int) = daysToYear y + yearLen y := by simp [daysToYear]
    rw [hstep, ih]
    have a4 : (((y+1 : Nat) : Int) + 3) / 4 = y / 4 + 1 := by omega
    have a100 : (((y+1 : Nat) : Int) + 99) / 100 = y / 100 + 1 := by omega
    have a400 : (((y+1 : Nat) : Int) + 399) / 400 = y / 400 + 1 := by omega
    have b4 : ((y : Int) + 3) / 4 = y / 4 + (if y % 4 = 0 then 0 else 1) := by split <;> omega
    have b100 : ((y : Int) + 99) / 100 = y / 100 + (if y % 100 = 0 then 0 else 1) := by split <;> omega
    have b400 : ((y : Int) + 399) / 400 = y / 400 + (if y % 400 = 0 then 0 else 1) := by split <;> omega
    rw [a4, a100, a400, b4, b100, b400]
    generalize (y:Int) / 4 = q4
    generalize (y:Int) / 100 = q100
    generalize (y:Int) / 400 = q400
    have i1 : y % 400 = 0 → y % 100 = 0 := by omega
    have i2 : y % 100 = 0 → y % 4 = 0 := by omega
    have hl : (yearLen y : Int) = 365 + (if y % 4 = 0 then 1 else 0) - (if y % 100 = 0 then 1 else 0) + (if y % 400 = 0 then 1 else 0) := by
      unfold yearLen Leap
      by_cases c4 : y % 4 = 0 <;> by_cases c100 : y % 100 = 0 <;> by_cases c400 : y % 400 = 0 <;>
        simp [c4, c100, c400] <;> omega
    rw [hl]
    generalize y % 4 = r4
    generalize y % 100 = r100
    generalize y % 400 = r400
    clear hl hstep ih
    split <;> split <;> split <;> omega

theorem isLeapC_eq (y : Nat) : isLeapC (y : Int) = decide (Leap y) := by
  have h4 : Int.tmod (y : Int) 4 = ((y % 4 : Nat) : Int) := by simp [Int.tmod_eq_emod_of_nonneg]
  have h100 : Int.tmod (y : Int) 100 = ((y % 100 : Nat) : Int) := by simp [Int.tmod_eq_emod_of_nonneg]
  have h400 : Int.tmod (y : Int) 400 = ((y % 400 : Nat) : Int) := by simp [Int.tmod_eq_emod_of_nonneg]
  unfold isLeapC
  rw [h4, h100, h400]
  clear h4 h100 h400
  rw [Bool.eq_iff_iff]
  simp only [Bool.or_eq_true, Bool.and_eq_true, beq_iff_eq, bne_iff_ne, ne_eq]
  rw [decide_eq_true_iff]
  unfold Leap
  generalize y % 4 = r4
  generalize y % 100 = r100
  generalize y % 400 = r400
  constructor <;> intro h <;> omega

theorem monthOffset_eq (y m : Nat) (h1 : 1 ≤ m) (h2 : m ≤ 12) :
    monthOffset (decide (Leap y)) (m : Int) = daysToMonth y (m - 1) := by
  have hm : m = 1 ∨ m = 2 ∨ m = 3 ∨ m = 4 ∨ m = 5 ∨ m = 6 ∨ m = 7 ∨ m = 8 ∨ m = 9 ∨ m = 10 ∨ m = 11 ∨ m = 12 := by omega
  by_cases h : Leap y
  · rcases hm with rfl|rfl|rfl|rfl|rfl|rfl|rfl|rfl|rfl|rfl|rfl|rfl <;>
      simp [monthOffset, daysToMonth, monthLen, h, LEAP_MONTH_OFFSET]
  · rcases hm with rfl|rfl|rfl|rfl|rfl|rfl|rfl|rfl|rfl|rfl|rfl|rfl <;>
      simp [monthOffset, daysToMonth, monthLen, h, MONTH_OFFSET]

/-- How far C's truncating divisions are off for a year. -/
def truncError (y : Nat) : Int :=
  (if y < 1969 ∧ (1969 - y) % 4 ≠ 0 then 1 else 0) - (if y < 1901 ∧ (1901 - y) % 100 ≠ 0 then 1 else 0)
   + (if y < 1601 ∧ (1601 - y) % 400 ≠ 0 then 1 else 0)

theorem tdiv_of_neg (a : Int) (b : Nat) (hb : 0 < b) (ha : a < 0) :
    Int.tdiv a b = a / b + (if a % b = 0 then 0 else 1) := by
  obtain ⟨n, rfl⟩ : ∃ n : Nat, a = -(n : Int) := ⟨a.natAbs, by omega⟩
  rw [Int.neg_tdiv, tdiv_nonneg_eq _ _ (by omega)]
  by_cases h : (-(n:Int)) % (b:Int) = 0
  · rw [if_pos h]
    have hd : (b : Int) ∣ (n : Int) := by
      have : (b:Int) ∣ -(n:Int) := Int.dvd_of_emod_eq_zero h
      exact (Int.dvd_neg).mp this
    obtain ⟨k, hk⟩ := hd
    rw [hk]
    have hb' : (b : Int) ≠ 0 := by omega
    rw [Int.mul_ediv_cancel_left _ hb']
    rw [show -((b:Int) * k) = b * (-k) from (Int.mul_neg _ _).symm, Int.mul_ediv_cancel_left _ hb']
    omega
  · rw [if_neg h]
    have e1 := Int.mul_ediv_add_emod (-(n:Int)) b
    have e2 := Int.mul_ediv_add_emod (n:Int) b
    have m1 := Int.emod_nonneg (-(n:Int)) (show (b:Int) ≠ 0 by omega)
    have m2 := Int.emod_lt_of_pos (-(n:Int)) (show (0:Int) < b by omega)
    have m3 := Int.emod_nonneg (n:Int) (show (b:Int) ≠ 0 by omega)
    have m4 := Int.emod_lt_of_pos (n:Int) (show (0:Int) < b by omega)
    generalize (-(n:Int)) / (b:Int) = q at *
    generalize (n:Int) / (b:Int) = r at *
    have hs : (b:Int) * (q + r) = -((-(n:Int)) % b) - (n:Int) % b := by rw [Int.mul_add]; omega
    have : q + r = -1 := by
      have h1 : (b:Int) * (q + r) < 0 := by omega
      have h2 : (b:Int) * (q + r) > (b:Int) * (-2) := by omega
      have h3 : q + r < 0 := by
        apply Int.lt_of_not_ge; intro h
        have := Int.mul_nonneg (show (0:Int) ≤ b by omega) h
        omega
      have h4 : -2 < q + r := Int.lt_of_mul_lt_mul_left h2 (by omega)
      omega
    omega

theorem daysC_eq (y m d : Nat) (h1 : 1 ≤ m) (h2 : m ≤ 12) :
    daysC y m d = dayNumber y m d + truncError y := by
  unfold daysC dayNumber
  rw [isLeapC_eq, monthOffset_eq y m h1 h2, daysToYear_closed, daysToYear_closed]
  have t4 : Int.tdiv ((y:Int) - 1968 - 1) 4 = ((y:Int) - 1969) / 4 + (if y < 1969 ∧ (1969 - y) % 4 ≠ 0 then 1 else 0) := by
    by_cases h : y < 1969
    · have := tdiv_of_neg ((y:Int) - 1968 - 1) 4 (by omega) (by omega)
      rw [show ((4:Nat):Int) = 4 from rfl] at this
      rw [this]; omega
    · rw [tdiv_nonneg_eq _ _ (by omega)]; omega
  have t100 : Int.tdiv ((y:Int) - 1900 - 1) 100 = ((y:Int) - 1901) / 100 + (if y < 1901 ∧ (1901 - y) % 100 ≠ 0 then 1 else 0) := by
    by_cases h : y < 1901
    · have := tdiv_of_neg ((y:Int) - 1900 - 1) 100 (by omega) (by omega)
      rw [show ((100:Nat):Int) = 100 from rfl] at this
      rw [this]; omega
    · rw [tdiv_nonneg_eq _ _ (by omega)]; omega
  have t400 : Int.tdiv ((y:Int) - 1600 - 1) 400 = ((y:Int) - 1601) / 400 + (if y < 1601 ∧ (1601 - y) % 400 ≠ 0 then 1 else 0) := by
    by_cases h : y < 1601
    · have := tdiv_of_neg ((y:Int) - 1600 - 1) 400 (by omega) (by omega)
      rw [show ((400:Nat):Int) = 400 from rfl] at this
      rw [this]; omega
    · rw [tdiv_nonneg_eq _ _ (by omega)]; omega
  rw [t4, t100, t400]
  unfold truncError
  generalize (if y < 1969 ∧ (1969 - y) % 4 ≠ 0 then (1:Int) else 0) = e1
  generalize (if y < 1901 ∧ (1901 - y) % 100 ≠ 0 then (1:Int) else 0) = e2
  generalize (if y < 1601 ∧ (1601 - y) % 400 ≠ 0 then (1:Int) else 0) = e3
  omega

/-- parsing of a date text made of digit runs -/
theorem scanYMD_text (ys ms ds rest : CStr) (hy : Digits ys) (hm : Digits ms) (hd : Digits ds) (hr : NoDigit rest)
    (vy : digitsValue ys ≤ 2147483647) (vm : 1 ≤ digitsValue ms ∧ digitsValue ms ≤ 12) (vd : digitsValue ds ≤ 2147483647) :
    scanYMD (ys ++ '-' :: (ms ++ '-' :: (ds ++ rest))) =
      .ok ((digitsValue ys : Int), (digitsValue ms : Int), (digitsValue ds : Int), rest) := by
  unfold scanYMD
  have nd : ∀ r, NoDigit ('-' :: r) := by intro r; show isDig '-' = false; decide
  rw [scanInt_digits ys _ hy (nd _) vy]
  simp only [Out.bind_ok, expect, peek, List.headD_cons, if_true, List.tail_cons]
  rw [scanInt_digits ms _ hm (nd _) (by omega)]
  simp only [Out.bind_ok, List.headD_cons, if_true, List.tail_cons]
  rw [if_neg (by omega), scanInt_digits ds rest hd hr vd]
  rfl

theorem toU32_of_lt (v : Int) (h0 : 0 ≤ v) (h : v < 4294967296) : ((toU 32 v : Nat) : Int) = v := by
  unfold toU
  rw [Int.emod_eq_of_lt h0 (by simpa using h)]
  omega

theorem truncError_zero (y : Nat) (h : 1969 ≤ y) : truncError y = 0 := by
  unfold truncError
  rw [if_neg (by omega), if_neg (by omega), if_neg (by omega)]; rfl

theorem daysToYear_mono {a b : Nat} (h : a ≤ b) : daysToYear a ≤ daysToYear b := by
  induction b with
  | zero => simp at h; subst h; exact Nat.le_refl _
  | succ b ih =>
    rcases Nat.lt_or_ge a (b+1) with h' | h'
    · have := ih (by omega); simp [daysToYear]; omega
    · have : a = b + 1 := by omega
      subst this; exact Nat.le_refl _

theorem dayNumber_nonneg (y m d : Nat) (hy : 1970 ≤ y) (hd : 1 ≤ d) : 0 ≤ dayNumber y m d := by
  have := daysToYear_mono hy
  unfold dayNumber; omega

end BX
