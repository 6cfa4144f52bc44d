import Verif.Model.Uuid
import Verif.Spec.Uuid
import Mathlib.Tactic.FinCases
/-! # Lemmas about UUID text -/
namespace Verif.Uuid
open Verif.Spec.Uuid

theorem hexVal_hexDigit (n : Fin 16) : hexVal (hexDigit n) = some n := by revert n; decide

theorem hexDigit_ne_nul (n : Fin 16) : (hexDigit n != '\x00') = true := by revert n; decide

theorem hexVal_some_iff (c : Char) : (∃ d, hexVal c = some d) ↔ IsHex c := by
  constructor
  · rintro ⟨d, h⟩
    have key : ∀ n : Nat, ∀ c : Char, c.toNat = n → c = Char.ofNat n := by
      intro n c h; rw [← h, Char.ofNat_toNat]
    unfold hexVal at h
    have e0 : '0'.toNat = 48 := rfl
    have e9 : '9'.toNat = 57 := rfl
    have ea : 'a'.toNat = 97 := rfl
    have ef : 'f'.toNat = 102 := rfl
    have eA : 'A'.toNat = 65 := rfl
    have eF : 'F'.toNat = 70 := rfl
    unfold IsHex
    split_ifs at h with h1 h2 h3
    · obtain ⟨h1, h1'⟩ := h1
      have : c.toNat = 48 ∨ c.toNat = 49 ∨ c.toNat = 50 ∨ c.toNat = 51 ∨ c.toNat = 52 ∨ c.toNat = 53 ∨ c.toNat = 54 ∨
        c.toNat = 55 ∨ c.toNat = 56 ∨ c.toNat = 57 := by omega
      rcases this with h | h | h | h | h | h | h | h | h | h <;> rw [key _ c h] <;> decide
    · obtain ⟨h1, h1'⟩ := h2
      have : c.toNat = 97 ∨ c.toNat = 98 ∨ c.toNat = 99 ∨ c.toNat = 100 ∨ c.toNat = 101 ∨ c.toNat = 102 := by omega
      rcases this with h | h | h | h | h | h <;> rw [key _ c h] <;> decide
    · obtain ⟨h1, h1'⟩ := h3
      have : c.toNat = 65 ∨ c.toNat = 66 ∨ c.toNat = 67 ∨ c.toNat = 68 ∨ c.toNat = 69 ∨ c.toNat = 70 := by omega
      rcases this with h | h | h | h | h | h <;> rw [key _ c h] <;> decide
  · intro h
    unfold IsHex at h
    simp only [List.mem_cons, List.not_mem_nil, or_false] at h
    rcases h with h | h | h | h | h | h | h | h | h | h | h | h | h | h | h | h | h | h | h | h | h | h <;>
      subst h <;> exact ⟨_, rfl⟩

/-- A hexadecimal digit prints back in lower case. -/
theorem hexDigit_of_hexVal (c : Char) (d : Fin 16) (h : hexVal c = some d) : hexDigit d = c.toLower := by
  have hx := (hexVal_some_iff c).mp ⟨d, h⟩
  unfold IsHex at hx
  simp only [List.mem_cons, List.not_mem_nil, or_false] at hx
  rcases hx with e | e | e | e | e | e | e | e | e | e | e | e | e | e | e | e | e | e | e | e | e | e <;>
    subst e <;> (have h' := h.symm; revert h'; revert d; decide)

theorem hi_pair (a b : Fin 16) : hi ⟨16 * a.val + b.val, by omega⟩ = a := by
  apply Fin.ext; simp only [hi]; omega

theorem lo_pair (a b : Fin 16) : lo ⟨16 * a.val + b.val, by omega⟩ = b := by
  apply Fin.ext; simp only [lo]; omega

theorem pair_hi_lo (x : Fin 256) : (⟨16 * (hi x).val + (lo x).val, by omega⟩ : Fin 256) = x := by
  apply Fin.ext; simp only [lo, hi]; omega

/-- Parsing a printed identifier gives its bytes. -/
theorem uuidParse_toStr (u : Uuid) : uuidParse u.toStr = some u.bytes := by
  obtain ⟨bs, hl⟩ := u
  match bs, hl with
  | [b0, b1, b2, b3, b4, b5, b6, b7, b8, b9, b10, b11, b12, b13, b14, b15], _ =>
    simp [uuidParse, toStr, unparseFrom, cStr, hexDigit_ne_nul, digitsFrom, hexVal_hexDigit, pairBytes,
      pair_hi_lo]

/-- What the checking loop accepts, by position. -/
theorem digitsFrom_some_iff (s : List Char) : ∀ i, (∃ ds, digitsFrom i s = some ds) ↔
    (∀ j (h : j < s.length), i + j ∈ [8, 13, 18, 23] → s[j] = '-') ∧
    (∀ j (h : j < s.length), i + j ∉ [8, 13, 18, 23] → IsHex s[j]) := by
  induction s with
  | nil => intro i; simp [digitsFrom]
  | cons c cs ih =>
    intro i
    have ih' := ih (i + 1)
    have shift : ∀ j, i + 1 + j = i + (j + 1) := by intro j; omega
    have split : ((∀ j (h : j < (c :: cs).length), i + j ∈ [8, 13, 18, 23] → (c :: cs)[j] = '-') ∧
        (∀ j (h : j < (c :: cs).length), i + j ∉ [8, 13, 18, 23] → IsHex (c :: cs)[j])) ↔
        ((i ∈ [8, 13, 18, 23] → c = '-') ∧ (i ∉ [8, 13, 18, 23] → IsHex c)) ∧
        (∀ j (h : j < cs.length), i + 1 + j ∈ [8, 13, 18, 23] → cs[j] = '-') ∧
        (∀ j (h : j < cs.length), i + 1 + j ∉ [8, 13, 18, 23] → IsHex cs[j]) := by
      constructor
      · rintro ⟨h1, h2⟩
        refine ⟨⟨h1 0 (by simp), h2 0 (by simp)⟩, ?_, ?_⟩
        · intro j h hm; exact h1 (j + 1) (by simpa using h) (by rw [← shift]; exact hm)
        · intro j h hm; exact h2 (j + 1) (by simpa using h) (by rw [← shift]; exact hm)
      · rintro ⟨⟨h1, h2⟩, h3, h4⟩
        constructor
        · intro j h hm
          cases j with
          | zero => exact h1 hm
          | succ j => exact h3 j (by simpa using h) (by rw [shift]; exact hm)
        · intro j h hm
          cases j with
          | zero => exact h2 hm
          | succ j => exact h4 j (by simpa using h) (by rw [shift]; exact hm)
    rw [split, ← ih']
    conv_lhs => unfold digitsFrom
    have hmem : (i ∈ [8, 13, 18, 23]) ↔ (i = 8 ∨ i = 13 ∨ i = 18 ∨ i = 23) := by simp
    rw [hmem]
    by_cases hd : i = 8 ∨ i = 13 ∨ i = 18 ∨ i = 23
    · simp only [hd, if_true, not_true, false_imp_iff, and_true, true_imp_iff]
      by_cases hc : c = '-' <;> simp [hc]
    · simp only [hd, if_false, not_false_eq_true, true_imp_iff, false_imp_iff, true_and]
      rw [← hexVal_some_iff]
      cases hv : hexVal c with
      | none => simp
      | some d => simp [Option.map_eq_some_iff]

theorem canonical_iff (s : List Char) : Canonical s ↔ s.length = 36 ∧ ∃ ds, digitsFrom 0 s = some ds := by
  rw [digitsFrom_some_iff]
  simp only [Nat.zero_add]
  exact ⟨fun h => ⟨h.length, h.dash, h.hex⟩, fun h => ⟨h.1, h.2.1, h.2.2⟩⟩

/-- A canonical string contains no NUL. -/
theorem canonical_cStr (s : List Char) (h : Canonical s) : cStr s = s := by
  unfold cStr
  have gen : ∀ l : List Char, (∀ c ∈ l, (c != '\x00') = true) → l.takeWhile (fun c => c != '\x00') = l := by
    intro l hl
    induction l with
    | nil => rfl
    | cons a l ih => rw [List.takeWhile_cons, if_pos (hl a (by simp)), ih (fun c hc => hl c (List.mem_cons_of_mem _ hc))]
  apply gen
  intro c hc
  obtain ⟨i, hi, rfl⟩ := List.mem_iff_getElem.mp hc
  by_cases hm : i ∈ [8, 13, 18, 23]
  · rw [h.dash i hi hm]; decide
  · have := h.hex i hi hm
    unfold IsHex at this
    simp only [List.mem_cons, List.not_mem_nil, or_false] at this
    rcases this with e | e | e | e | e | e | e | e | e | e | e | e | e | e | e | e | e | e | e | e | e | e <;>
      rw [e] <;> decide

theorem cons_of_length {n : Nat} (l : List α) (h : l.length = n + 1) : ∃ a t, l = a :: t ∧ t.length = n := by
  cases l with
  | nil => simp at h
  | cons a t => exact ⟨a, t, rfl, by simpa using h⟩

/-- Sixteen bytes, and the lower-case print. -/
theorem digitsFrom_print (s : List Char) (hl : s.length = 36) (ds : List (Fin 16)) (h : digitsFrom 0 s = some ds) :
    (pairBytes ds).length = 16 ∧ unparseFrom 0 (pairBytes ds) = lower s := by
  obtain ⟨a0, s0, rfl, l0⟩ := cons_of_length s hl
  obtain ⟨a1, s1, rfl, l1⟩ := cons_of_length s0 l0
  obtain ⟨a2, s2, rfl, l2⟩ := cons_of_length s1 l1
  obtain ⟨a3, s3, rfl, l3⟩ := cons_of_length s2 l2
  obtain ⟨a4, s4, rfl, l4⟩ := cons_of_length s3 l3
  obtain ⟨a5, s5, rfl, l5⟩ := cons_of_length s4 l4
  obtain ⟨a6, s6, rfl, l6⟩ := cons_of_length s5 l5
  obtain ⟨a7, s7, rfl, l7⟩ := cons_of_length s6 l6
  obtain ⟨a8, s8, rfl, l8⟩ := cons_of_length s7 l7
  obtain ⟨a9, s9, rfl, l9⟩ := cons_of_length s8 l8
  obtain ⟨a10, s10, rfl, l10⟩ := cons_of_length s9 l9
  obtain ⟨a11, s11, rfl, l11⟩ := cons_of_length s10 l10
  obtain ⟨a12, s12, rfl, l12⟩ := cons_of_length s11 l11
  obtain ⟨a13, s13, rfl, l13⟩ := cons_of_length s12 l12
  obtain ⟨a14, s14, rfl, l14⟩ := cons_of_length s13 l13
  obtain ⟨a15, s15, rfl, l15⟩ := cons_of_length s14 l14
  obtain ⟨a16, s16, rfl, l16⟩ := cons_of_length s15 l15
  obtain ⟨a17, s17, rfl, l17⟩ := cons_of_length s16 l16
  obtain ⟨a18, s18, rfl, l18⟩ := cons_of_length s17 l17
  obtain ⟨a19, s19, rfl, l19⟩ := cons_of_length s18 l18
  obtain ⟨a20, s20, rfl, l20⟩ := cons_of_length s19 l19
  obtain ⟨a21, s21, rfl, l21⟩ := cons_of_length s20 l20
  obtain ⟨a22, s22, rfl, l22⟩ := cons_of_length s21 l21
  obtain ⟨a23, s23, rfl, l23⟩ := cons_of_length s22 l22
  obtain ⟨a24, s24, rfl, l24⟩ := cons_of_length s23 l23
  obtain ⟨a25, s25, rfl, l25⟩ := cons_of_length s24 l24
  obtain ⟨a26, s26, rfl, l26⟩ := cons_of_length s25 l25
  obtain ⟨a27, s27, rfl, l27⟩ := cons_of_length s26 l26
  obtain ⟨a28, s28, rfl, l28⟩ := cons_of_length s27 l27
  obtain ⟨a29, s29, rfl, l29⟩ := cons_of_length s28 l28
  obtain ⟨a30, s30, rfl, l30⟩ := cons_of_length s29 l29
  obtain ⟨a31, s31, rfl, l31⟩ := cons_of_length s30 l30
  obtain ⟨a32, s32, rfl, l32⟩ := cons_of_length s31 l31
  obtain ⟨a33, s33, rfl, l33⟩ := cons_of_length s32 l32
  obtain ⟨a34, s34, rfl, l34⟩ := cons_of_length s33 l33
  obtain ⟨a35, s35, rfl, l35⟩ := cons_of_length s34 l34
  have enil := List.length_eq_zero_iff.mp l35
  subst enil
  have hh := (digitsFrom_some_iff _ 0).mp ⟨ds, h⟩
  simp only [Nat.zero_add] at hh
  obtain ⟨hdash, hhex⟩ := hh
  have g : ∀ i (hi : i < 36), i ∉ [8, 13, 18, 23] → ∃ d, hexVal ([a0, a1, a2, a3, a4, a5, a6, a7, a8, a9, a10, a11, a12, a13,
      a14, a15, a16, a17, a18, a19, a20, a21, a22, a23, a24, a25, a26, a27, a28, a29, a30, a31, a32, a33, a34, a35][i]) = some d :=
    fun i hi hm => (hexVal_some_iff _).mpr (hhex i hi hm)
  obtain ⟨d0, h0⟩ := g 0 (by decide) (by decide)
  obtain ⟨d1, h1⟩ := g 1 (by decide) (by decide)
  obtain ⟨d2, h2⟩ := g 2 (by decide) (by decide)
  obtain ⟨d3, h3⟩ := g 3 (by decide) (by decide)
  obtain ⟨d4, h4⟩ := g 4 (by decide) (by decide)
  obtain ⟨d5, h5⟩ := g 5 (by decide) (by decide)
  obtain ⟨d6, h6⟩ := g 6 (by decide) (by decide)
  obtain ⟨d7, h7⟩ := g 7 (by decide) (by decide)
  have h8 := hdash 8 (by simp) (by decide)
  obtain ⟨d9, h9⟩ := g 9 (by decide) (by decide)
  obtain ⟨d10, h10⟩ := g 10 (by decide) (by decide)
  obtain ⟨d11, h11⟩ := g 11 (by decide) (by decide)
  obtain ⟨d12, h12⟩ := g 12 (by decide) (by decide)
  have h13 := hdash 13 (by simp) (by decide)
  obtain ⟨d14, h14⟩ := g 14 (by decide) (by decide)
  obtain ⟨d15, h15⟩ := g 15 (by decide) (by decide)
  obtain ⟨d16, h16⟩ := g 16 (by decide) (by decide)
  obtain ⟨d17, h17⟩ := g 17 (by decide) (by decide)
  have h18 := hdash 18 (by simp) (by decide)
  obtain ⟨d19, h19⟩ := g 19 (by decide) (by decide)
  obtain ⟨d20, h20⟩ := g 20 (by decide) (by decide)
  obtain ⟨d21, h21⟩ := g 21 (by decide) (by decide)
  obtain ⟨d22, h22⟩ := g 22 (by decide) (by decide)
  have h23 := hdash 23 (by simp) (by decide)
  obtain ⟨d24, h24⟩ := g 24 (by decide) (by decide)
  obtain ⟨d25, h25⟩ := g 25 (by decide) (by decide)
  obtain ⟨d26, h26⟩ := g 26 (by decide) (by decide)
  obtain ⟨d27, h27⟩ := g 27 (by decide) (by decide)
  obtain ⟨d28, h28⟩ := g 28 (by decide) (by decide)
  obtain ⟨d29, h29⟩ := g 29 (by decide) (by decide)
  obtain ⟨d30, h30⟩ := g 30 (by decide) (by decide)
  obtain ⟨d31, h31⟩ := g 31 (by decide) (by decide)
  obtain ⟨d32, h32⟩ := g 32 (by decide) (by decide)
  obtain ⟨d33, h33⟩ := g 33 (by decide) (by decide)
  obtain ⟨d34, h34⟩ := g 34 (by decide) (by decide)
  obtain ⟨d35, h35⟩ := g 35 (by decide) (by decide)
  simp only [List.getElem_cons_zero, List.getElem_cons_succ] at h0 h1 h2 h3 h4 h5 h6 h7 h8 h9 h10 h11 h12 h13 h14 h15 h16 h17 h18 h19 h20 h21 h22 h23 h24 h25 h26 h27 h28 h29 h30 h31 h32 h33 h34 h35
  subst_vars
  simp only [digitsFrom, h0, h1, h2, h3, h4, h5, h6, h7, h9, h10, h11, h12, h14, h15, h16, h17, h19, h20, h21, h22, h24, h25, h26, h27, h28, h29, h30, h31, h32, h33, h34, h35] at h
  simp at h
  subst h
  refine ⟨by simp [pairBytes], ?_⟩
  simp only [pairBytes, unparseFrom, hi_pair, lo_pair, lower, List.map_cons, List.map_nil,
    hexDigit_of_hexVal _ _ h0,
    hexDigit_of_hexVal _ _ h1,
    hexDigit_of_hexVal _ _ h2,
    hexDigit_of_hexVal _ _ h3,
    hexDigit_of_hexVal _ _ h4,
    hexDigit_of_hexVal _ _ h5,
    hexDigit_of_hexVal _ _ h6,
    hexDigit_of_hexVal _ _ h7,
    hexDigit_of_hexVal _ _ h9,
    hexDigit_of_hexVal _ _ h10,
    hexDigit_of_hexVal _ _ h11,
    hexDigit_of_hexVal _ _ h12,
    hexDigit_of_hexVal _ _ h14,
    hexDigit_of_hexVal _ _ h15,
    hexDigit_of_hexVal _ _ h16,
    hexDigit_of_hexVal _ _ h17,
    hexDigit_of_hexVal _ _ h19,
    hexDigit_of_hexVal _ _ h20,
    hexDigit_of_hexVal _ _ h21,
    hexDigit_of_hexVal _ _ h22,
    hexDigit_of_hexVal _ _ h24,
    hexDigit_of_hexVal _ _ h25,
    hexDigit_of_hexVal _ _ h26,
    hexDigit_of_hexVal _ _ h27,
    hexDigit_of_hexVal _ _ h28,
    hexDigit_of_hexVal _ _ h29,
    hexDigit_of_hexVal _ _ h30,
    hexDigit_of_hexVal _ _ h31,
    hexDigit_of_hexVal _ _ h32,
    hexDigit_of_hexVal _ _ h33,
    hexDigit_of_hexVal _ _ h34,
    hexDigit_of_hexVal _ _ h35]
  rfl

end Verif.Uuid
