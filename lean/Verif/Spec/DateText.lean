import Verif.Spec.Calendar
import Verif.Spec.Text
/-
Texts of dates and times, as relations between a text and the numbers it denotes.
-/
namespace BX.Spec
open BX

/-- `s` is a decimal numeral (leading zeros allowed) of value `n`. -/
def Numeral (n : Nat) (s : CStr) : Prop := Digits s ∧ digitsValue s = n

/-- `s` is a date "year-month-day" in numerals. -/
def DateText (y m d : Nat) (s : CStr) : Prop :=
  ∃ ys ms ds, Numeral y ys ∧ Numeral m ms ∧ Numeral d ds ∧ s = ys ++ '-' :: (ms ++ '-' :: ds)

/-- `s` is an ISO date YYYY-MM-DD. -/
def IsoDate (y m d : Nat) (s : CStr) : Prop :=
  ∃ ys ms ds, Numeral y ys ∧ ys.length = 4 ∧ Numeral m ms ∧ ms.length = 2 ∧ Numeral d ds ∧ ds.length = 2 ∧
    s = ys ++ '-' :: (ms ++ '-' :: ds)

/-- `s` is a time of day "hour:minute:second" in numerals. -/
def TimeText (h mi sec : Nat) (s : CStr) : Prop :=
  ∃ hs ms ss, Numeral h hs ∧ Numeral mi ms ∧ Numeral sec ss ∧ s = hs ++ ':' :: (ms ++ ':' :: ss)

def ValidTime (h mi sec : Nat) : Prop := h < 24 ∧ mi < 60 ∧ sec < 60
instance (y m d : Nat) : Decidable (ValidTime y m d) := inferInstanceAs (Decidable (_ ∧ _))

/-- seconds since 1970-01-01 00:00:00 -/
def secondsOf (y m d h mi s : Nat) : Int := dayNumber y m d * 86400 + h * 3600 + mi * 60 + s

end BX.Spec
