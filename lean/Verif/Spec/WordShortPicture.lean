import Verif.Spec.Conversion
import Verif.Spec.WordShort

/-! Specification of C111: what a Word table with short rows shows. -/

namespace Benker.Shown

open OoxmlSpec in
/-- what the rows of a Word table of `W` columns show, the first one being the row number `r`: the cells which continue another one are parts of it; nothing is written at the
places on the right of a row which is too short -/
def shortLines (W : Nat) : Int → List Node → Picture
  | _, [] => []
  | r, tr :: trs =>
    ⟨natureOfRow tr, ((place 0 (kids ["tc"] tr)).filter (fun s => !continues s.2)).map (fun s =>
      (⟨⟨s.1, r⟩, ⟨s.1 + span s.2 - 1, r + run s.1 (trs.map (kids ["tc"]))⟩⟩, (kids ["p", "tbl"] s.2).flatMap (fun n => toks (n.setTail none)))) ++
      (List.range (W - (total (kids ["tc"] tr)).toNat)).map (fun (k : Nat) => (⟨⟨total (kids ["tc"] tr) + k + 1, r⟩, ⟨total (kids ["tc"] tr) + k + 1, r⟩⟩, []))⟩ ::
    shortLines W (r + 1) trs

/-- what a Word table of `W` columns shows -/
def shortPicture (W : Nat) (tbl : Node) : Picture := shortLines W 1 (OoxmlSpec.kids ["tr"] tbl)

end Benker.Shown
