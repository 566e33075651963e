import Verif.Spec.CaserNet
import Verif.Spec.DmfTower
import Verif.Model.CaserFloat

/-! # How far rounding may take Caser's scores -/

namespace DRec.Spec

open DRec.Cas

/-- The network with all numbers replaced by their absolute values: nothing cancels. -/
noncomputable def absNet (m : Cas.Net) : Cas.Net where
  cfg := m.cfg
  users := m.users
  items := m.items
  U a k := |m.U a k|
  E a k := |m.E a k|
  Kv j c f := |m.Kv j c f|
  bv f := |m.bv f|
  Kh i j c f := |m.Kh i j c f|
  bh i f := |m.bh i f|
  actH := m.actH
  actMlp := m.actMlp
  D j k := |m.D j k|
  bd k := |m.bd k|
  W a k := |m.W a k|
  b a := |m.b a|

/-- The rounded operations on the way to a score: convolution, dense layer, product. -/
def caserSteps (c : Caser) : Nat := (c.L * c.d + 1) + (c.nv + c.L * c.nh + 1) + (2 * c.d + 1)

end DRec.Spec
