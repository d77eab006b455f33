import Verif.Spec.Files
import Verif.Spec.Xml

/-! Documents which are read after they have been written. -/

namespace Benker.NamespaceSpec
open Files

mutual
/-- `n'` may be read where `n` was written.  The default namespace `d` is in force around `n`; an element `t` may declare another one, `d'`, if `may t d'`.  The
elements which have no namespace are in the default one. -/
def Reread (may : QName → Option String → Prop) (d : Option String) : Node → Node → Prop
  | .elem t a x cs tl, n' => ∃ d' cs', (d' = d ∨ may t d') ∧ RereadList may d' cs cs' ∧ n' = .elem (if t.ns = none then ⟨d', t.name⟩ else t) a x cs' tl
  | n, n' => n' = n
/-- the same, for some nodes -/
def RereadList (may : QName → Option String → Prop) (d : Option String) : List Node → List Node → Prop
  | [], ns' => ns' = []
  | n :: ns, ns' => ∃ m ms, Reread may d n m ∧ RereadList may d ns ms ∧ ns' = m :: ms
end

/-- every element is in a namespace -/
def AllNamed (n : Node) : Prop := ∀ q a, Tok.opening q a ∈ toks n → q.ns ≠ none

/-- all that the names of the elements may have changed is that those without a namespace are in one -/
def SameButNames : Tok → Tok → Prop
  | .opening q a, k => ∃ q', k = .opening q' a ∧ q'.name = q.name ∧ (q.ns ≠ none → q' = q)
  | .closing q, k => ∃ q', k = .closing q' ∧ q'.name = q.name ∧ (q.ns ≠ none → q' = q)
  | k, k' => k' = k

/-- the XML library reads what it has written, except that elements without a namespace may be in a default namespace -/
def Library (env : Env) : Prop := ∀ enc n chunks, env.write enc n = .ok chunks → ∃ n', Reread (fun _ _ => True) none n n' ∧ env.read chunks.flatten = .ok n'

end Benker.NamespaceSpec
