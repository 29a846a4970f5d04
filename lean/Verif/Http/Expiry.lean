import Verif.Http.Typed

/-!
# The texts of `SetExpire` and `GetExpire` (net/http/header-set-cookie.go:91-107)

`Time.Format` and `time.Parse` (standard library) for the three layouts the code names: `TimeFormat` (net/http/const.go:17), RFC 1123 and
the same with dashes. A time is its civil date and time of day in UTC. Parameters: the day of the week of a date, and the offset of a
zone other than UTC, which depends on the place the program runs at.
-/

namespace Memar.Http.Expiry
open Memar Decimal

/-- A time in UTC (standard library `time.Time` as `Format` and `Date` see it). -/
structure Civil where
  year : Int
  month : Nat
  day : Nat
  hour : Nat
  minute : Nat
  second : Nat
  nano : Nat
  deriving DecidableEq, Repr

/-- The names of the days, `shortDayNames` of the standard library. -/
def dayNames : List Bytes := [bs "Sun", bs "Mon", bs "Tue", bs "Wed", bs "Thu", bs "Fri", bs "Sat"]

/-- The names of the months, `shortMonthNames` of the standard library. -/
def monthNames : List Bytes :=
  [bs "Jan", bs "Feb", bs "Mar", bs "Apr", bs "May", bs "Jun", bs "Jul", bs "Aug", bs "Sep", bs "Oct", bs "Nov", bs "Dec"]

/-- `isLeap` of the standard library. -/
def isLeap (y : Int) : Bool := y % 4 = 0 && (y % 100 ≠ 0 || y % 400 = 0)

/-- `daysIn` of the standard library. -/
def daysIn (m : Nat) (y : Int) : Nat :=
  if m = 2 then (if isLeap y then 29 else 28)
  else if m = 4 ∨ m = 6 ∨ m = 9 ∨ m = 11 then 30 else 31

/-! ## Writing -/

/-- Two digits, `appendInt(b, n, 2)` of the standard library for `n < 100`. -/
def two (n : Nat) : Bytes := [digitChar (n / 10), digitChar (n % 10)]

/-- `appendInt(b, n, 4)` of the standard library. -/
def pad4 (n : Nat) : Bytes := List.replicate (4 - (decDigits n).length) (ch '0') ++ decDigits n

/-- The year of a layout with `2006`. -/
def yearText (y : Int) : Bytes := if y < 0 then ch '-' :: pad4 (-y).toNat else pad4 y.toNat

/-- `Time.Format` with the layout `Mon, 02 Jan 2006 15:04:05` and ` GMT` (net/http/const.go:17); `sep` is the blank of the date. -/
def formatWith (sep : Byte) (weekday : Civil → Fin 7) (c : Civil) : Bytes :=
  dayNames.getD (weekday c).val [] ++ (bs ", " ++ (two c.day ++ (sep :: (monthNames.getD (c.month - 1) [] ++ (sep :: (yearText c.year ++
    (ch ' ' :: (two c.hour ++ (ch ':' :: (two c.minute ++ (ch ':' :: (two c.second ++ bs " GMT"))))))))))))

/-- `expTime.UTC().Format(TimeFormat)` (net/http/header-set-cookie.go:106). -/
def format (weekday : Civil → Fin 7) (c : Civil) : Bytes := formatWith (ch ' ') weekday c

/-! ## Reading -/

/-- A letter in lower case, `match` of the standard library: two letters that differ in their case only. -/
def sameLetter (a b : Byte) : Bool :=
  a = b || ((a ||| 0x20#8) = (b ||| 0x20#8) && 97 ≤ (a ||| 0x20#8).toNat && (a ||| 0x20#8).toNat ≤ 122)

/-- `lookup` of the standard library: the number of the first name the text begins with, and the rest of the text. -/
def lookup : List Bytes → Bytes → Option (Nat × Bytes)
  | [], _ => none
  | n :: ns, v =>
    if n.length ≤ v.length ∧ ((v.take n.length).zip n).all (fun p => sameLetter p.1 p.2) then some (0, v.drop n.length)
    else (lookup ns v).map fun (p : Nat × Bytes) => (p.1 + 1, p.2)

/-- `skip` of the standard library with a blank: any number of blanks, none only at the end of the text. -/
def skipBlank (v : Bytes) : Option Bytes :=
  match v with
  | [] => some []
  | b :: _ => if b = ch ' ' then some (v.dropWhile (· = ch ' ')) else none

/-- `skip` of the standard library with one character. -/
def skipChar (c : Byte) (v : Bytes) : Option Bytes :=
  if c = ch ' ' then skipBlank v
  else
    match v with
    | [] => none
    | b :: r => if b = c then some r else none

/-- `isDigit` of the standard library. -/
def isDig (b : Byte) : Bool := 48 ≤ b.toNat && b.toNat ≤ 57

/-- `getnum` of the standard library: two digits, or one when `fixed` is not asked for. -/
def getnum (fixed : Bool) (v : Bytes) : Option (Nat × Bytes) :=
  match v with
  | [] => none
  | a :: r =>
    if isDig a then
      match r with
      | [] => if fixed then none else some (a.toNat - 48, [])
      | b :: r' =>
        if isDig b then some ((a.toNat - 48) * 10 + (b.toNat - 48), r')
        else if fixed then none else some (a.toNat - 48, r)
    else none

/-- The year of a layout with `2006`: four digits. -/
def getyear (v : Bytes) : Option (Int × Bytes) :=
  if 4 ≤ v.length ∧ (v.take 4).all isDig then some ((decVal (v.take 4) : Int), v.drop 4) else none

/-- The fraction of a second, which is read although the layout has none: a point or a comma and digits, of which nine count. -/
def fraction (v : Bytes) : Nat × Bytes :=
  match v with
  | p :: d :: r =>
    if (p = ch '.' ∨ p = ch ',') ∧ isDig d then
      (decVal (((d :: r).takeWhile isDig ++ List.replicate 9 (ch '0')).take 9), (d :: r).dropWhile isDig)
    else (0, v)
  | _ => (0, v)

/-- The zone: `UTC`, or as the parameter says (what is left of the text, and the offset in seconds). -/
def readZone (zone : Bytes → Option (Bytes × Int)) (v : Bytes) : Option (Bytes × Int) :=
  if bs "UTC" = v.take 3 then some (v.drop 3, 0) else zone v

/-- `time.Parse` (standard library) with the layout `Mon, 02 Jan 2006 15:04:05 MST` of RFC 1123 (net/http/header-set-cookie.go:93), or
with `sep` between the parts of the date (net/http/header-set-cookie.go:95): the date and time of day of the text, and the offset of its
zone. The name of the day is read and not used. -/
def parse (sep : Byte) (zone : Bytes → Option (Bytes × Int)) (v : Bytes) : Option (Civil × Int) :=
  (lookup dayNames v).bind fun (x : Nat × Bytes) =>
  (skipChar (ch ',') x.2).bind fun (v : Bytes) =>
  (skipBlank v).bind fun (v : Bytes) =>
  (getnum true v).bind fun (day : Nat × Bytes) =>
  (skipChar sep day.2).bind fun (v : Bytes) =>
  (lookup monthNames v).bind fun (month : Nat × Bytes) =>
  (skipChar sep month.2).bind fun (v : Bytes) =>
  (getyear v).bind fun (year : Int × Bytes) =>
  (skipBlank year.2).bind fun (v : Bytes) =>
  (getnum false v).bind fun (hour : Nat × Bytes) =>
  (skipChar (ch ':') hour.2).bind fun (v : Bytes) =>
  (getnum true v).bind fun (minute : Nat × Bytes) =>
  (skipChar (ch ':') minute.2).bind fun (v : Bytes) =>
  (getnum true v).bind fun (second : Nat × Bytes) =>
  (skipBlank (fraction second.2).2).bind fun (v : Bytes) =>
  (readZone zone v).bind fun (z : Bytes × Int) =>
  if z.1 = [] ∧ hour.1 < 24 ∧ minute.1 < 60 ∧ second.1 < 60 ∧ 1 ≤ day.1 ∧ day.1 ≤ daysIn (month.1 + 1) year.1 then
    some (⟨year.1, month.1 + 1, day.1, hour.1, minute.1, second.1, (fraction second.2).1⟩, z.2)
  else none

/-- The zero `time.Time`. -/
def zeroTime : Civil × Int := (⟨1, 1, 1, 0, 0, 0, 0⟩, 0)

/-- net/http/header-set-cookie.go:91-101 `GetExpire`. -/
def getExpire (zone : Bytes → Option (Bytes × Int)) (sc : SetCookie) : Civil × Int :=
  sc.getExpire zeroTime (parse (ch ' ') zone) (parse (ch '-') zone)

/-- net/http/header-set-cookie.go:105-107 `SetExpire` of a time given in UTC. -/
def setExpire (weekday : Civil → Fin 7) (sc : SetCookie) (c : Civil) : SetCookie := sc.setExpire id (format weekday) c

end Memar.Http.Expiry
