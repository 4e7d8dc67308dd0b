/- Specification: the number that a label shows. -/
import Verif.Model.LogLabels

namespace PyGeode.Spec

/-- the number shown -/
def shownNumber : LogLabels.Label → ℚ
  | .zero => 0
  | .plain n => n / 10
  | .power n e => n * 10 ^ e

end PyGeode.Spec
