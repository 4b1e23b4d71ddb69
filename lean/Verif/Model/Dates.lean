import Verif.Model.Text
/-
Dates and timestamps. Models src/utils.cpp:393-673.
-/
namespace BX

/-- `MONTH_OFFSET`, utils.cpp:393-407 -/
def MONTH_OFFSET : List Nat := [0, 31, 59, 90, 120, 151, 181, 212, 243, 273, 304, 334]
/-- `LEAP_MONTH_OFFSET`, utils.cpp:409-423 -/
def LEAP_MONTH_OFFSET : List Nat := [0, 31, 60, 91, 121, 152, 182, 213, 244, 274, 305, 335]

/-- `MAX_DAY = 0xffffffff/(24*60*60)`, utils.cpp:425 -/
def MAX_DAY : Nat := 0xffffffff / 86400

/-- `is_leap_year`, utils.cpp:452, 555 (`%` truncates towards zero; only tested against 0) -/
def isLeapC (year : Int) : Bool :=
  ((Int.tmod year 4 == 0) && (Int.tmod year 100 != 0)) || (Int.tmod year 400 == 0)

/-- days of the year before the given month (1..12), utils.cpp:453-456, 556-559 -/
def monthOffset (leap : Bool) (month : Int) : Nat :=
  (if leap then LEAP_MONTH_OFFSET else MONTH_OFFSET).getD (month - 1).toNat 0

/-- the arithmetic of utils.cpp:447-457 / 550-560, with C's truncating division -/
def daysC (year month day : Int) : Int :=
  (year - 1970) * 365 + Int.tdiv (year - 1968 - 1) 4 - Int.tdiv (year - 1900 - 1) 100 + Int.tdiv (year - 1600 - 1) 400
    + monthOffset (isLeapC year) month + (day - 1)

/-- `*(p++) != c` → failure, otherwise the advanced cursor -/
def expect (c : Char) (p : CStr) : Out CStr :=
  if peek p = c then .ok p.tail else .fail

/-- year, month and day of a date text and the cursor behind it: utils.cpp:434-439, 537-542 -/
def scanYMD (p : CStr) : Out (Int × Int × Int × CStr) :=
  (scanInt p).bind fun (year, p) =>
  (expect '-' p).bind fun p =>
  (scanInt p).bind fun (month, p) =>
  if month < 1 ∨ month > 12 then .fail else
  (expect '-' p).bind fun p =>
  (scanInt p).bind fun (day, p) =>
  .ok (year, month, day, p)

/-- `ScanUnixDate`, utils.cpp:531-563; the arithmetic is `int32_t`, adding `day - 1` may overflow, which is
undefined (the sums before it are in range for the accepted years). -/
def scanUnixDate (p : CStr) : Out (Int × CStr) :=
  (scanYMD p).bind fun (year, month, day, p) =>
  if year < -365749 ∨ year > 369689 then .fail
  else
    let v := daysC year month day
    if isI32 v then .ok (v, p) else .ub

/-- `ScanUnixTime`, utils.cpp:427-483: `value` is `uint32_t` and wraps; `int` products that overflow are undefined. -/
def scanUnixTime (p : CStr) : Out (Nat × CStr) :=
  (scanYMD p).bind fun (year, month, day, p) =>
  if year < 1970 then .fail
  else if ¬ isI32 ((year - 1970) * 365) then .ub
  else
    let days := toU 32 (daysC year month day)
    if days > MAX_DAY then .fail
    else
      let value := days * 86400
      if p = [] then .ok (value, p)
      else if peek p ≠ ' ' ∧ peek p ≠ 'T' then .fail
      else
        (scanInt p.tail).bind fun (hour, p) =>
        if ¬ isI32 (hour * 3600) then .ub else
        let value := toU 32 ((value : Int) + hour * 3600)
        if p = [] then .ok (value, p) else
        (expect ':' p).bind fun p =>
        (scanInt p).bind fun (minute, p) =>
        if ¬ isI32 (minute * 60) then .ub else
        let value := toU 32 ((value : Int) + minute * 60)
        (expect ':' p).bind fun p =>
        (scanInt p).bind fun (second, p) =>
        .ok (toU 32 ((value : Int) + second), p)

/-- the zone part of `ScanUnixTime64msec`, utils.cpp:506-524: returns the corrected `tm32` -/
def zoneShift (start : CStr) (tm32 : Nat) (p : CStr) : Out Nat :=
  if cAt start 10 = 'T' then
    let p := p.dropWhile isDig
    if peek p = 'Z' then .ok tm32
    else if peek p = '+' ∨ peek p = '-' then
      let sign : Int := if peek p = '+' then -1 else 1
      match scanInt p.tail with
      | .ub => .ub
      | .fail => .ok tm32
      | .ok (hour, p) =>
        if peek p ≠ ':' then .ok tm32 else
        match scanInt p.tail with
        | .ub => .ub
        | .fail => .ok tm32
        | .ok (min, _) =>
          if isI32 (hour * 3600) ∧ isI32 (min * 60) ∧ isI32 (hour * 3600 + min * 60) then
            .ok (toU 32 ((tm32 : Int) + sign * (hour * 3600 + min * 60)))
          else .ub
    else .ok tm32
  else .ok tm32

/-- `ScanUnixTime64msec`, utils.cpp:485-529 (the cursor is not used by any caller afterwards and is dropped) -/
def scanUnixTime64msec (start : CStr) : Out Int :=
  (scanUnixTime start).bind fun (tm32, p) =>
  if peek p ≠ '.' then .ok ((tm32 : Int) * 1000)
  else match p.tail with
  | a :: b :: c :: p =>
    if isDig a ∧ isDig b ∧ isDig c then
      (zoneShift start tm32 p).bind fun tm32 =>
      .ok ((100 * digVal a + 10 * digVal b + digVal c : Nat) + (tm32 : Int) * 1000)
    else .fail
  | _ => .fail

/-- `DAY2MONTH`, utils.cpp:570-582 -/
def DAY2MONTH : List Nat :=
  List.replicate 31 1 ++ List.replicate 28 2 ++ List.replicate 31 3 ++ List.replicate 30 4 ++ List.replicate 31 5 ++
  List.replicate 30 6 ++ List.replicate 31 7 ++ List.replicate 31 8 ++ List.replicate 30 9 ++ List.replicate 31 10 ++
  List.replicate 30 11 ++ List.replicate 31 12
/-- `DAY2MONTH_LEAP`, utils.cpp:583-595 -/
def DAY2MONTH_LEAP : List Nat :=
  List.replicate 31 1 ++ List.replicate 29 2 ++ List.replicate 31 3 ++ List.replicate 30 4 ++ List.replicate 31 5 ++
  List.replicate 30 6 ++ List.replicate 31 7 ++ List.replicate 31 8 ++ List.replicate 30 9 ++ List.replicate 31 10 ++
  List.replicate 30 11 ++ List.replicate 31 12

/-- `%0kd` -/
def padInt (k : Nat) (v : Int) : CStr :=
  if v < 0 then '-' :: padDec (k - 1) v.natAbs else padDec k v.natAbs

/-- year, leap flag and day of year computed by `UnixDate2Str`, utils.cpp:599-643 -/
def splitDate (value : Int) : Int × Bool × Int :=
  let value := value - 10957
  let y400 := Int.tdiv value 146097
  let y400 := if value < 0 then y400 - 1 else y400
  let value := value - y400 * 146097
  let year := 2000 + y400 * 400
  if value < 366 then (year, true, value)
  else
    let value := value - 1
    let y100 := Int.tdiv value 36524
    let value := value - y100 * 36524
    let year := year + y100 * 100
    if value < 365 then (year, false, value)
    else
      let value := value + 1
      let y4 := Int.tdiv value 1461
      let value := value - y4 * 1461
      let year := year + y4 * 4
      if value < 366 then (year, true, value)
      else
        let value := value - 1
        let y1 := Int.tdiv value 365
        (year + y1, false, value - y1 * 365)

/-- `UnixDate2Str`, utils.cpp:597-660: `fail` is the `nullptr` of the failed assertion. The assertion of the non-leap
branch admits 365, which would read behind `DAY2MONTH`; the computed value never reaches it. -/
def unixDate2Str (value : Int) : Out CStr :=
  if value < INT_MIN + 10957 then .ub else
  match splitDate value with
  | (year, leap, v) =>
    if leap then
      if 0 ≤ v ∧ v < 365 then
        let month := DAY2MONTH_LEAP.getD v.toNat 0
        let day := 1 + v - LEAP_MONTH_OFFSET.getD (month - 1) 0
        .ok (padInt 4 year ++ '-' :: padInt 2 month ++ '-' :: padInt 2 day)
      else .fail
    else
      if 0 ≤ v ∧ v < 366 then
        if v = 365 then .ub else
        let month := DAY2MONTH.getD v.toNat 0
        let day := 1 + v - MONTH_OFFSET.getD (month - 1) 0
        .ok (padInt 4 year ++ '-' :: padInt 2 month ++ '-' :: padInt 2 day)
      else .fail

/-- `UnixTime642Str`, utils.cpp:662-673: `strlen` of the `nullptr` result is undefined; the day number is truncated to
`int32_t` when passed on. -/
def unixTime642Str (value : Int) : Out CStr :=
  let day := Int.tdiv value 86400000
  let day := ofU 32 (toU 32 day)
  match unixDate2Str day with
  | .ok s =>
    let v := Int.tmod value 86400000
    .ok (s ++ ' ' :: padInt 2 (Int.tmod (Int.tdiv v 3600000) 24) ++ ':' :: padInt 2 (Int.tmod (Int.tdiv v 60000) 60)
      ++ ':' :: padInt 2 (Int.tmod (Int.tdiv v 1000) 60) ++ '.' :: padInt 3 (Int.tmod v 1000))
  | _ => .ub

end BX
