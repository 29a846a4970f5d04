import Verif.Time.Model

/-!
# Whole minutes, hours, days and weeks of a duration: `time/earth`

`int64` division truncates (`sdiv`).  The constants of nanoseconds are declared as nanoseconds and computed from a constant of
seconds, which does not type-check; they are modelled with the value their expression has.
-/

namespace Memar.Time.Earth
open Memar Memar.Time

/-- time/duration/second.go:11 `OneSecond` -/
def oneSecond : I64 := 1#64

/-- time/earth/duration-minute.go:13 -/
def secondInMinute : I64 := 60#64
/-- time/earth/duration-minute.go:14 -/
def nanoSecondInMinute : I64 := 60#64 * oneSecond
/-- time/earth/duration-hour.go:13 -/
def nanoSecondInHour : I64 := 60#64 * nanoSecondInMinute
/-- time/earth/duration-hour.go:14 -/
def secondInHour : I64 := 60#64 * secondInMinute
/-- time/earth/duration-day.go:14 -/
def nanoSecondInDay : I64 := 24#64 * nanoSecondInHour
/-- time/earth/duration-day.go:15 -/
def secondInDay : I64 := 24#64 * secondInHour
/-- time/earth/duration-week.go:13 -/
def nanoSecondInWeek : I64 := 7#64 * nanoSecondInDay
/-- time/earth/duration-week.go:14 -/
def secondInWeek : I64 := 7#64 * secondInDay
/-- time/earth/duration-minute.go:16-18, time/earth/duration-hour.go:16-17 and time/earth/duration-day.go:17 -/
def minuteInHour : I64 := 60#64
def minuteInDay : I64 := 24#64 * minuteInHour
def minuteInWeek : I64 := 7#64 * minuteInDay
def hourInDay : I64 := 24#64
def hourInWeek : I64 := 7#64 * hourInDay
def dayInWeek : I64 := 7#64

/-- time/earth/duration-minute.go:26-29 -/
def minuteFromSecond (d : I64) : I64 := d.sdiv secondInMinute
/-- time/earth/duration-minute.go:21-24 -/
def minuteFromNano (d : I64) : I64 := d.sdiv nanoSecondInMinute
/-- time/earth/duration-hour.go:25-28 -/
def hourFromSecond (d : I64) : I64 := d.sdiv secondInHour
/-- time/earth/duration-hour.go:20-23 -/
def hourFromNano (d : I64) : I64 := d.sdiv nanoSecondInHour
/-- time/earth/duration-day.go:25-28 -/
def dayFromSecond (d : I64) : I64 := d.sdiv secondInDay
/-- time/earth/duration-day.go:20-23 -/
def dayFromNano (d : I64) : I64 := d.sdiv nanoSecondInDay
/-- time/earth/duration-week.go:22-25 -/
def weekFromSecond (d : I64) : I64 := d.sdiv secondInWeek
/-- time/earth/duration-week.go:17-20 -/
def weekFromNano (d : I64) : I64 := d.sdiv nanoSecondInWeek

end Memar.Time.Earth
