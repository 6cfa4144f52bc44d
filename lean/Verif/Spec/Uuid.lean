/-! # What the textual form of a UUID looks like (RFC 4122) -/
namespace Verif.Spec.Uuid

/-- A hexadecimal digit of either case. -/
def IsHex (c : Char) : Prop :=
  c ∈ ['0', '1', '2', '3', '4', '5', '6', '7', '8', '9', 'a', 'b', 'c', 'd', 'e', 'f', 'A', 'B', 'C', 'D', 'E', 'F']

/-- The canonical 8-4-4-4-12 form. -/
structure Canonical (s : List Char) : Prop where
  length : s.length = 36
  dash : ∀ i (h : i < s.length), i ∈ [8, 13, 18, 23] → s[i] = '-'
  hex : ∀ i (h : i < s.length), i ∉ [8, 13, 18, 23] → IsHex s[i]

/-- Lower-case form of a string. -/
def lower (s : List Char) : List Char := s.map Char.toLower

end Verif.Spec.Uuid
