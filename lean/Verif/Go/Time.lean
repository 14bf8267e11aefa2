import Verif.Go.Num
/-!
# Package time of Go 1.15: calendar and texts

`absDate`, `absClock`, `absWeekday` (time.go), `appendInt` and the layouts used (format.go), and `appendTime` of
net/http (server.go). From the sources as remembered. An instant is a number of seconds since 1970.
-/
namespace J8a.Go

/-- `unixToInternal + internalToAbsolute`: the seconds from the beginning of the absolute year, 730692556 cycles of 400
years before the year 1, to 1970. -/
def unixToAbsolute : Int := (730692556 * 146097 + 719162) * 86400

/-- `Time.abs` in a zone this many seconds east of UTC. -/
def absOf (unix offset : Int) : Nat := ((unix + offset + unixToAbsolute) % 2 ^ 64).toNat

def isLeap (year : Int) : Bool := year % 4 = 0 && (year % 100 ≠ 0 || year % 400 = 0)

/-- `daysBefore`. -/
def daysBefore : List Nat := [0, 31, 59, 90, 120, 151, 181, 212, 243, 273, 304, 334, 365]

/-- `absDate`, month and day from the day of the year, counted from zero. -/
def monthDay (leap : Bool) (yday : Nat) : Nat × Nat :=
  if leap = true ∧ yday = 31 + 29 - 1 then (2, 29)
  else
    let day := if leap = true ∧ 31 + 29 - 1 < yday then yday - 1 else yday
    let month := day / 31
    let stop := daysBefore.getD (month + 1) 0
    if stop ≤ day then (month + 2, day - stop + 1) else (month + 1, day - daysBefore.getD month 0 + 1)

/-- `absDate`, year and day of the year: how many years have passed since the beginning of the absolute year. -/
def yearDay (days : Nat) : Nat × Nat :=
  let n := days / 146097
  let d := days - 146097 * n
  let n1 := d / 36524
  let n1 := n1 - n1 / 4
  let d1 := d - 36524 * n1
  let n4 := d1 / 1461
  let d4 := d1 - 1461 * n4
  let ny := d4 / 365
  let ny := ny - ny / 4
  (400 * n + 100 * n1 + 4 * n4 + ny, d4 - 365 * ny)

/-- `absDate`. -/
def absDate (abs : Nat) : Int × Nat × Nat :=
  let yd := yearDay (abs / 86400)
  let year : Int := yd.1 - 292277022399
  let md := monthDay (isLeap year) yd.2
  (year, md.1, md.2)

/-- `absClock`. -/
def absClock (abs : Nat) : Nat × Nat × Nat := (abs % 86400 / 3600, abs % 3600 / 60, abs % 60)

/-- `absWeekday`, from Sunday on: the absolute year begins with a Monday. -/
def absWeekday (abs : Nat) : Nat := (abs + 86400) % 604800 / 86400

/-- format.go `appendInt`. -/
def appendInt (x : Int) (width : Nat) : Str :=
  (if x < 0 then ['-'] else []) ++ List.replicate (width - (natToDec x.natAbs).length) '0' ++ natToDec x.natAbs

/-- The layout `2006-01-02`. -/
def formatDate (abs : Nat) : Str :=
  let d := absDate abs
  appendInt d.1 4 ++ '-' :: appendInt d.2.1 2 ++ '-' :: appendInt d.2.2 2

/-- The layout `Z07:00`. Division truncates. -/
def formatZone (offset : Int) : Str :=
  if offset = 0 then ['Z']
  else
    let zone := offset.tdiv 60
    (if zone < 0 then '-' else '+') :: appendInt (zone.natAbs / 60 : Nat) 2 ++ ':' :: appendInt (zone.natAbs % 60 : Nat) 2

/-- `time.RFC3339`. -/
def formatRFC3339 (unix offset : Int) : Str :=
  let c := absClock (absOf unix offset)
  formatDate (absOf unix offset) ++ 'T' :: appendInt c.1 2 ++ ':' :: appendInt c.2.1 2 ++ ':' :: appendInt c.2.2 2 ++
    formatZone offset

/-- The slices of `days` and `months` in `appendTime`. -/
def dayNames : List Str := ["Sun", "Mon", "Tue", "Wed", "Thu", "Fri", "Sat"].map String.toList
def monthNames : List Str :=
  ["Jan", "Feb", "Mar", "Apr", "May", "Jun", "Jul", "Aug", "Sep", "Oct", "Nov", "Dec"].map String.toList

/-- `byte('0' + n)`. -/
def digitByte (n : Int) : Char := Char.ofNat ((48 + n) % 256).toNat

/-- net/http `appendTime`. Division of a negative year truncates; there is none here. -/
def appendTime (unix : Int) : Str :=
  let abs := absOf unix 0
  let d := absDate abs
  let c := absClock abs
  let two := fun n : Nat => [digitByte (n / 10 : Nat), digitByte (n % 10 : Nat)]
  dayNames.getD (absWeekday abs) [] ++ ", ".toList ++ two d.2.2 ++ ' ' :: monthNames.getD (d.2.1 - 1) [] ++
    ' ' :: [digitByte (d.1 / 1000), digitByte (d.1 / 100 % 10), digitByte (d.1 / 10 % 10), digitByte (d.1 % 10)] ++
    ' ' :: two c.1 ++ ':' :: two c.2.1 ++ ':' :: two c.2.2 ++ " GMT".toList

example : formatRFC3339 1605520800 0 = "2020-11-16T10:00:00Z".toList := by decide +kernel
example : formatRFC3339 951782400 (-12600) = "2000-02-28T20:30:00-03:30".toList := by decide +kernel
example : formatRFC3339 253402300800 0 = "10000-01-01T00:00:00Z".toList := by decide +kernel
example : appendTime 784111777 = "Sun, 06 Nov 1994 08:49:37 GMT".toList := by decide +kernel

end J8a.Go
