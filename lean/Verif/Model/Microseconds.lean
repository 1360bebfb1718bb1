import Verif.Model.IsoDuration
import Verif.Proofs.Binary64
/-!
# Durations with fractions of a second (`jsoned/iso_datetime.py` 80-85, 124-156)

`Model/IsoDuration.lean` leaves open what becomes of fractions.  Here they are computed as CPython 3.11 computes them with `float`s.
-/

namespace Verif.Iso
open Verif Flo Num

/-- The number a text of digits with an optional point stands for (`float`, used at iso_datetime.py 80). -/
def decimalOf (u : UDB) (t : Str) : Rat :=
  let fr := (t.dropWhile (· != '.')).drop 1
  (u.natOf (t.takeWhile (· != '.') ++ fr) : Rat) / ((10 ^ fr.length : Nat) : Rat)

/-- The microseconds of `timedelta(seconds=x)` for a `float` `0 <= x` (`accum` and the end of `delta_new` in Modules/_datetimemodule.c): whole
seconds exactly, the rest times 10^6 with rounding, then to the nearest integer, halves to even.  The other units are even numbers of
microseconds and change nothing in that (used at iso_datetime.py 85). -/
def microsOf (x : Rat) : Int := x.floor * 1000000 + halfEven (fl (1000000 * (x - x.floor)))

/-- `timedelta(seconds=float(text))` in microseconds (iso_datetime.py 80-85); `none` if the `float` is infinite. -/
def secMicros (u : UDB) (t : Str) : Option Int :=
  if tooLarge (decimalOf u t) then none else some (microsOf (fl (decimalOf u t)))

/-- The seconds of a duration text (iso_datetime.py 149-153): an integral number without point, others as `f"{seconds}"` prints them. -/
def secondsText (x : Rat) : Str :=
  if x = 0 then [] else (if (x.floor : Rat) = x then natStr x.floor.toNat else reprPos x) ++ ['S']

/-- The text made of sign, weeks, days, hours, minutes and the text of the seconds (iso_datetime.py 135-156) -/
def joinDuration (neg : Bool) (w d h m : Nat) (sec : Str) : Str :=
  let date := unitText w 'W' ++ unitText d 'D'
  let time := unitText h 'H' ++ (unitText m 'M' ++ sec)
  (if neg then ['-'] else []) ++ ['P'] ++ date ++ (if time = [] then [] else 'T' :: time)

/-- `timedelta_to_iso_duration(timedelta(microseconds=t))` (iso_datetime.py 124-156); `total_seconds()` divides two integers. -/
def printDuration (t : Int) : Str :=
  let seconds := fl ((t : Rat) / 1000000)
  let neg := decide (seconds < 0)
  let seconds := mag seconds
  let (minutes, seconds) := divmod seconds ((60 : Nat) : Rat)
  let (hours, minutes) := divmod minutes ((60 : Nat) : Rat)
  let (days, hours) := divmod hours ((24 : Nat) : Rat)
  let (weeks, days) := divmod days ((7 : Nat) : Rat)
  joinDuration neg weeks.floor.toNat days.floor.toNat hours.floor.toNat minutes.floor.toNat (secondsText (round6 seconds))

end Verif.Iso
