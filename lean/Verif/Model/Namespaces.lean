import Verif.Model.ConvertFile

/-! The default namespaces which the builders declare, and what is read where they are declared.  The prefixes themselves are not modelled: an element which is in a
namespace is always written in a way which tells its namespace. -/

namespace Benker.Namespaces

/-- `ns_map` of the CALS builder, which is given to each element it makes: the namespace which it declares for the names without prefix
(builders/cals.py 126-127, 138-155, 250, 292, 367, 382, 462, 570) -/
def calsDefault (prefix_ ns : Option String) : Option String := if prefix_ = none then ns else none

/-- `ns_map` of the Formex builder, which is given to `TBL` and `colspec`: the namespace which it declares for the names without prefix
(builders/formex.py 146-158, 242, 417) -/
def formexDefault (useCals : Bool) (prefix_ ns : Option String) : Option String := if useCals = true ∧ prefix_ = none then ns else none

mutual
/-- what `lxml` reads after it has written this node, if `decl` tells which default namespace the elements declare, and if `d` is the one in force:
a name without namespace is written without prefix and without declaration (`etree.ElementTree.write`, parsers/base_parser.py 84), and is read in the default namespace -/
def readBack (decl : QName → Option String) (d : Option String) : Node → Node
  | .elem t a x cs tl =>
    let d' := (decl t).or d
    .elem (if t.ns = none then ⟨d', t.name⟩ else t) a x (readBackList decl d' cs) tl
  | n => n
/-- what is read of some nodes -/
def readBackList (decl : QName → Option String) (d : Option String) : List Node → List Node
  | [] => []
  | n :: ns => readBack decl d n :: readBackList decl d ns
end

end Benker.Namespaces
