import Verif.Model.Xml

/-! Specifications on XML trees: the stream of tokens of a document, the orders of its elements, well-nested events. -/

namespace Benker

/-- tokens of a serialised document -/
inductive Tok where
  | opening (tag : QName) (attrs : Dict QName String)
  | closing (tag : QName)
  | char (c : Char)
  | pi (target data : String)
  | comment (data : String)
deriving DecidableEq

/-- tokens of a text -/
def textToks : Option String → List Tok
  | none => []
  | some s => s.toList.map .char

mutual
/-- the tokens of a node followed by its tail, in document order -/
def toks : Node → List Tok
  | .elem t a x cs tl => .opening t a :: (textToks x ++ toksList cs ++ [.closing t]) ++ textToks tl
  | .pi t d tl => .pi t d :: textToks tl
  | .comment d tl => .comment d :: textToks tl
def toksList : List Node → List Tok
  | [] => []
  | n :: ns => toks n ++ toksList ns
end

/-- the characters of a stream of tokens -/
def charsOf : List Tok → List Char
  | [] => []
  | .char c :: l => c :: charsOf l
  | _ :: l => charsOf l

/-- tokens of a piece of content: text or node -/
def pieceToks : Option Content → List Tok
  | some (.text s) => textToks (some s)
  | some (.node n) => toks n
  | _ => []

mutual
/-- elements of a tree, parents before children -/
def preorder : Node → List Node
  | .elem t a x cs tl => .elem t a x cs tl :: preorderList cs
  | _ => []
def preorderList : List Node → List Node
  | [] => []
  | n :: ns => preorder n ++ preorderList ns
end

mutual
/-- elements of a tree, children before parents -/
def postorder : Node → List Node
  | .elem t a x cs tl => postorderList cs ++ [.elem t a x cs tl]
  | _ => []
def postorderList : List Node → List Node
  | [] => []
  | n :: ns => postorder n ++ postorderList ns
end

/-- a sequence of events in which every start is closed by the end of the same element, properly nested -/
inductive Balanced : List Event → Prop
  | nil : Balanced []
  | wrap (n : Node) (p : Option Node) (inside after : List Event) (h1 : Balanced inside) (h2 : Balanced after) :
      Balanced (⟨true, n, p⟩ :: (inside ++ ⟨false, n, p⟩ :: after))

end Benker
