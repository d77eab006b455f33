import Verif.Model.Xml

/-! Tables inside tables. -/

namespace Benker

mutual
/-- the node with the tables found in it emptied: their texts and children are removed, their name, attributes and tail are kept -/
def emptyTables (tbl : QName) : Node → Node
  | .elem t a x cs tl => if t = tbl then .elem t a none [] tl else .elem t a x (emptyTablesIn tbl cs) tl
  | .pi a b tl => .pi a b tl
  | .comment a tl => .comment a tl
def emptyTablesIn (tbl : QName) : List Node → List Node
  | [] => []
  | n :: ns => emptyTables tbl n :: emptyTablesIn tbl ns
end

/-- a table with the tables inside it emptied -/
def emptyInner (tbl : QName) : Node → Node
  | .elem t a x cs tl => .elem t a x (emptyTablesIn tbl cs) tl
  | n => n

end Benker
