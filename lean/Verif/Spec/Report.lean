import Verif.Model.Report

/-!
# Reports
-/

namespace Fbpic.Report.Spec

/-- `h:m:s` is the time `t` rounded to the second below. -/
def Clock (t : ℚ) : ℤ × ℤ × ℤ → Prop
  | (h, m, s) => 0 ≤ m ∧ m < 60 ∧ 0 ≤ s ∧ s < 60 ∧ (3600 * h + 60 * m + s : ℤ) ≤ t ∧ t < (3600 * h + 60 * m + s : ℤ) + 1

end Fbpic.Report.Spec
