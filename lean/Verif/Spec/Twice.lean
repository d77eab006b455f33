import Verif.Spec.FormexDocument
import Verif.Spec.Document

/-! Documents which are converted twice. -/

namespace Benker.Shown
open CalsSpec

/-- the element holds nothing but a CALS table, which is drawn on a grid of `w` columns and `h` rows and shows these lines -/
def HoldsCals (ns : Option String) (w h : Nat) (p : Picture) (n : Node) : Prop :=
  ∃ (C : Node) (d : CalsDoc), n.children = [C] ∧ d.table = C ∧ InCals ns d w h p

end Benker.Shown
