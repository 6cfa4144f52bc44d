import Verif.Model.Assert
/-! # Source text -/
namespace Verif.Spec

/-- The text of some tokens exactly as it is in the source, without the white space before the first. -/
def sourceText : List Tok → String
  | [] => ""
  | t :: ts => t.text ++ String.join (ts.map fun u => u.space ++ u.text)

/-- Open parentheses after some tokens. -/
def depth (ts : List Tok) : Int := (ts.filter (·.text = "(")).length - (ts.filter (·.text = ")")).length

/-- No comma outside parentheses. -/
def NoTopComma (ts : List Tok) : Prop := ∀ pre t post, ts = pre ++ t :: post → t.text = "," → depth pre ≠ 0

/-- All parentheses are matched. -/
def Balanced (ts : List Tok) : Prop := depth ts = 0 ∧ ∀ pre post, ts = pre ++ post → 0 ≤ depth pre

end Verif.Spec
