import Verif.Model.Moment
import Verif.Spec.Calendar
/-! # Moments of a local clock that may be set forward or back -/
namespace TF.Spec

/-- Around the timestamp `e` (three days each way) the local clock is at most once set forward or back: at `T`, from being `a` seconds ahead of UTC to
being `b` ahead. -/
def OneChange (z : Zone) (e T a b : Int) : Prop :=
  |a| < 43200 ∧ |b| < 43200 ∧ ∀ u, |u - e| ≤ 3 * 86400 → z.shift u = if u < T then a else b

/-- The local clock shows the moment at `e` and never before. -/
def ShownFirst (z : Zone) (e : Int) (c : Civil) : Prop := ClockAt z e c ∧ ∀ e', ClockAt z e' c → e ≤ e'

/-- The local clock shows the moment at `e` and never again. -/
def ShownLast (z : Zone) (e : Int) (c : Civil) : Prop := ClockAt z e c ∧ ∀ e', ClockAt z e' c → e' ≤ e

end TF.Spec
