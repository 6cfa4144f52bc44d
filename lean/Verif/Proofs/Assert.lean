import Verif.Spec.Source
import Mathlib.Tactic.Ring
/-! # Lemmas on the splitting of macro arguments -/
namespace Verif.Assert
open Verif.Spec

/-- Without macros in them tokens stay as they are. -/
theorem expand_none (ms : Macros) (ts : List Tok) (h : ∀ t ∈ ts, ms.lookup t.text = none) : expand ms ts = ts := by
  unfold expand
  cases ms.length with
  | zero => rfl
  | succ n =>
    unfold expandN
    induction ts with
    | nil => rfl
    | cons t ts ih =>
      rw [List.flatMap_cons, h t (by simp), ih fun u hu => h u (by simp [hu])]
      rfl

theorem depth_nil : depth [] = 0 := rfl

theorem depth_append (a b : List Tok) : depth (a ++ b) = depth a + depth b := by
  simp only [depth, List.filter_append, List.length_append, Nat.cast_add]
  ring

/-- Splitting in terms of the depth of what came before. -/
theorem splitGo_no_comma (ts : List Tok) : ∀ (d : Int) (cur : List Tok),
    (∀ pre t post, ts = pre ++ t :: post → t.text = "," → d + depth pre ≠ 0) → ∀ rest, splitGo d cur (ts ++ rest) = splitGo (d + depth ts) (cur ++ ts) rest := by
  induction ts with
  | nil => intro d cur _ rest; simp [depth_nil]
  | cons t ts ih =>
    intro d cur h rest
    have h0 : ¬ (t.text = "," ∧ d = 0) := fun ⟨h1, h2⟩ => h [] t ts rfl h1 (by rw [h2, depth_nil]; rfl)
    have hd : (if t.text = "(" then d + 1 else if t.text = ")" then d - 1 else d) = d + depth [t] := by
      by_cases h1 : t.text = "("
      · simp [h1, depth]
      · by_cases h2 : t.text = ")"
        · simp [h2, depth]; ring
        · simp [h1, h2, depth]
    have hc : ∀ l, depth (t :: l) = depth [t] + depth l := fun l => depth_append [t] l
    rw [List.cons_append, splitGo, if_neg h0, hd, ih _ _ ?_ rest, hc ts, add_assoc]
    · simp
    · intro pre u post he hu
      have := h (t :: pre) u post (by rw [he]; rfl) hu
      rw [hc] at this
      rwa [add_assoc]

theorem split_one (ts : List Tok) (h : NoTopComma ts) : split ts = [ts] := by
  have := splitGo_no_comma ts 0 [] (fun pre t post he ht => by rw [zero_add]; exact h pre t post he ht) []
  rw [List.append_nil] at this
  rw [split, this]
  simp [splitGo]

theorem split_cons (c rest : List Tok) (comma : Tok) (hc : NoTopComma c) (hb : Balanced c) (h : comma.text = ",") :
    split (c ++ comma :: rest) = c :: split rest := by
  have := splitGo_no_comma c 0 [] (fun pre t post he ht => by rw [zero_add]; exact hc pre t post he ht) (comma :: rest)
  rw [split, this, hb.1, splitGo, if_pos ⟨h, rfl⟩]
  rfl

end Verif.Assert
