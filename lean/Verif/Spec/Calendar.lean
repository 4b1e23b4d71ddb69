/-
The proleptic Gregorian calendar, written down from its definition: leap years, month lengths, counting days.
-/
namespace BX.Spec

/-- A year is a leap year when divisible by 4, except centuries not divisible by 400. -/
def Leap (y : Nat) : Prop := (y % 4 = 0 ∧ y % 100 ≠ 0) ∨ y % 400 = 0
instance (y : Nat) : Decidable (Leap y) := inferInstanceAs (Decidable (_ ∨ _))

def yearLen (y : Nat) : Nat := if Leap y then 366 else 365

/-- Length of month `m` (1 = January) of year `y`. -/
def monthLen (y m : Nat) : Nat :=
  if m = 2 then (if Leap y then 29 else 28)
  else if m = 4 ∨ m = 6 ∨ m = 9 ∨ m = 11 then 30 else 31

/-- Number of days in the years `0 .. y-1`. -/
def daysToYear : Nat → Nat
  | 0 => 0
  | y+1 => daysToYear y + yearLen y

/-- Number of days of year `y` in its first `k` months. -/
def daysToMonth (y : Nat) : Nat → Nat
  | 0 => 0
  | k+1 => daysToMonth y k + monthLen y (k+1)

def ValidDate (y m d : Nat) : Prop := 1 ≤ m ∧ m ≤ 12 ∧ 1 ≤ d ∧ d ≤ monthLen y m
instance (y m d : Nat) : Decidable (ValidDate y m d) := inferInstanceAs (Decidable (_ ∧ _))

/-- Days from 1970-01-01 to the given date (negative before). -/
def dayNumber (y m d : Nat) : Int :=
  (daysToYear y : Int) + daysToMonth y (m - 1) + (d - 1 : Int) - daysToYear 1970

end BX.Spec
