import Verif.Word
/-!
# The other helpers of `lib/utils.c`

`int` values are integers here; an operation whose result is not one of -2147483648..2147483647 is
undefined (`none`).
-/
namespace Mpp

/-- A result of type `int`. -/
def asInt (n : Int) : Option Int := if -2147483648 ≤ n ∧ n ≤ 2147483647 then some n else none

/-- The loop of `get_num_digits` (`utils.c:18-21`); `/` rounds towards zero. -/
def numDigitsLoop (number : Int) (count : Nat) : Nat :=
  if number = 0 then count else numDigitsLoop (number.tdiv 10) (count + 1)
  termination_by number.natAbs
  decreasing_by rw [Int.natAbs_tdiv]; exact Nat.div_lt_self (by omega) (by decide)

/-- `get_num_digits` (`utils.c:16-24`). -/
def getNumDigits (number : Int) : Nat := numDigitsLoop number 0

/-- `random_int` (`utils.c:26-29`), where `rand()` returns `r`. -/
def randomIn (r min max : Int) : Option Int := if max = 0 then none else asInt (r.tmod max + min)

/-- `(int)log10(x)` for `x ≥ 1`, taken to be exact. -/
def intLog10 (x : Nat) : Nat := if x < 10 then 0 else intLog10 (x / 10) + 1
  termination_by x
  decreasing_by omega

/-- The digits written by `%d` for `n ≥ 0`. -/
def decimal (n : Nat) : List Char :=
  if n < 10 then [Char.ofNat (48 + n)] else decimal (n / 10) ++ [Char.ofNat (48 + n % 10)]
  termination_by n
  decreasing_by omega

/-- The text in the buffer after `snprintf(str, size, "%d", n)` with `n ≥ 0`, where `str` has room for
`room` characters: at most `size - 1` digits and the terminator are written, none if `size` is 0. -/
def snprintfD (room size n : Nat) : Option (List Char) :=
  if size = 0 then none
  else if (decimal n).length < size then if (decimal n).length + 1 ≤ room then some (decimal n) else none
  else if size ≤ room then some ((decimal n).take (size - 1)) else none

/-- `num_to_str` (`utils.c:31-36`): `num + 1` must not overflow, and `log10` of a number below 1 has no
`int` value. -/
def numToStr (num : Int) : Option (List Char) :=
  match asInt (num + 1) with
  | none => none
  | some x =>
    if x < 1 then none
    else
      let numLen := intLog10 x.toNat + 1 + 1
      snprintfD (numLen + 1) numLen num.toNat

end Mpp
