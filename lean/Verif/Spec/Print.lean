import Verif.Spec.Stream
import Verif.Model.Print
/-
What a reader of XML should see of a source.
-/
namespace BX.Spec
open BX

/-- a text without characters of markup -/
def Clean (s : CStr) : Prop := ∀ c ∈ s, c ≠ '<' ∧ c ≠ '>' ∧ c ≠ '&' ∧ c ≠ '"'

/-- a name that can be written in a tag -/
def TagName (n : CStr) : Prop := n ≠ [] ∧ ∀ c ∈ n, special c = false

mutual
/-- every element with its name and attributes, its children in order and its text (without the white space around it) -/
def nodeToks : PNode → List Tok
  | .mk name attrs value kids => .opened name (attrs.map fun a => (a.1, a.2.getD [])) :: nodesToks kids ++ textTok (value.getD []) ++ [.closed name]
def nodesToks : List PNode → List Tok
  | [] => []
  | k :: ks => nodeToks k ++ nodesToks ks
end

mutual
/-- all names can be written in tags, all attributes have a value, and there is no character of markup in any value -/
def CleanNode : PNode → Prop
  | .mk name attrs value kids => TagName name ∧ (∀ a ∈ attrs, TagName a.1 ∧ ∃ v, a.2 = some v ∧ Clean v) ∧ (∀ v, value = some v → Clean v) ∧ CleanNodes kids
def CleanNodes : List PNode → Prop
  | [] => True
  | k :: ks => CleanNode k ∧ CleanNodes ks
end

end BX.Spec
