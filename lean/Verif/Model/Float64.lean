import Mathlib.Data.Nat.Notation
import Mathlib.Data.Nat.Log

/-!
# IEEE-754 binary64 encoding of natural numbers

Needed for the dtype of the integer send buffers (C08). A 64-bit word is a natural number
`< 2^64`.
-/

namespace Fbpic

/-- Bits (as a natural number) of the binary64 nearest to the natural number `n` (ties to even), for
`n < 2^1023`. Biased exponent in bits 52-62, fraction in bits 0-51; a carry out of the fraction
increments the exponent, as in IEEE-754. This is the conversion numpy does when an unsigned
integer is stored in a float64 array. -/
def f64Bits (n : ℕ) : ℕ :=
  if n = 0 then 0
  else
    let e := Nat.log 2 n
    if e ≤ 52 then (1023 + e) * 2 ^ 52 + (n * 2 ^ (52 - e) - 2 ^ 52)
    else
      let s := 2 ^ (e - 52)
      let q := n / s
      let r := n % s
      let m := if s < 2 * r ∨ (s = 2 * r ∧ q % 2 = 1) then q + 1 else q
      (1023 + e) * 2 ^ 52 + (m - 2 ^ 52)

end Fbpic
