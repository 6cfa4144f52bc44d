import Verif.Model.ShippedExamples
import Verif.Spec.Stats
/-! # What the example programs are meant to do -/
namespace Verif.Spec.ShippedExamples
open Matrix

/-- The text that says what a variant holds. -/
def expected : Match.Ty → String
  | .int => "This variant contains an int!"
  | .char => "This variant contains a char!"
  | _ => "This variant contains a double or bool!"

/-- The inverse of the covariance of the example. -/
noncomputable def precision : Matrix (Fin 2) (Fin 2) ℝ := !![0.25 / 0.2784, 0.96 / 0.2784; 0.96 / 0.2784, 4.8 / 0.2784]

/-- Numbers are written without commas and ends of lines. -/
def Plain (fmt : ℝ → List Char) : Prop := ∀ x, ',' ∉ fmt x ∧ '\n' ∉ fmt x

/-- The lines of a text that ends with an end of line. -/
def records (text : List Char) : List (List Char) :=
  text.foldr (fun ch acc => if ch = '\n' then [] :: acc else match acc with
    | [] => [[ch]]
    | l :: ls => (ch :: l) :: ls) []

/-- The two fields of a line: what stands before the first comma, and what follows it after a blank. -/
def fields (l : List Char) : List Char × List Char := (l.takeWhile (· != ','), (l.dropWhile (· != ',')).drop 2)

end Verif.Spec.ShippedExamples
