import Verif.Proofs.Assert
/-! # C99: assertions -/
namespace Verif.Props
open Verif.Assert Verif.Spec

/-- C99.  With no comma outside parentheses `REASSERT` asserts the whole of its argument, whatever macros are in it, and has no message. -/
theorem c99_one (ms : Macros) (c : List Tok) (h : NoTopComma (expand ms c)) :
    reassert ms c = .assertImpl (expand ms c) (stringize (expand ms c)) none := by
  rw [reassert, split_one _ h]
  rfl

/-- C99.  With one comma outside parentheses the condition is what comes before it and the message what comes after. -/
theorem c99_two (ms : Macros) (args c m : List Tok) (comma : Tok) (he : expand ms args = c ++ comma :: m) (hcomma : comma.text = ",")
    (hc : NoTopComma c) (hb : Balanced c) (hm : NoTopComma m) :
    reassert ms args = .assertImpl c (stringize c) (some m) := by
  rw [reassert, he, split_cons c m comma hc hb hcomma, split_one m hm]
  rfl

/-- An assertion of resim/transforms/framed_vector.hh:60. -/
example : reassert [] [⟨"", "frame_"⟩, ⟨" ", "=="⟩, ⟨" ", "other"⟩, ⟨"", "."⟩, ⟨"", "frame_"⟩, ⟨"", ","⟩, ⟨" ", "\"Vector frames must match\""⟩] =
    .assertImpl [⟨"", "frame_"⟩, ⟨" ", "=="⟩, ⟨" ", "other"⟩, ⟨"", "."⟩, ⟨"", "frame_"⟩] "frame_ == other.frame_"
      (some [⟨" ", "\"Vector frames must match\""⟩]) := by decide

/-- The comma can come from a macro. -/
example : reassert [("BOTH", [⟨"", "ok"⟩, ⟨"", ","⟩, ⟨" ", "why"⟩])] [⟨"", "BOTH"⟩] = .assertImpl [⟨"", "ok"⟩] "ok" (some [⟨" ", "why"⟩]) := by decide

/-- C99.  A condition in parentheses is one argument whatever is in it. -/
theorem c99_parentheses (l r : Tok) (ts : List Tok) (hl : l.text = "(") (hr : r.text = ")") (hb : Balanced ts) : NoTopComma (l :: ts ++ [r]) := by
  intro pre t post he ht hd
  cases pre with
  | nil =>
    have : l = t := by simpa using congrArg List.head? he
    rw [this, ht] at hl
    exact absurd hl (by decide)
  | cons p pre =>
    have hp : p = l := by simpa using (congrArg List.head? he).symm
    subst hp
    have he' : ts ++ [r] = pre ++ t :: post := by simpa using he
    have h1 : depth [p] = 1 := by simp [depth, hl]
    have h2 : depth (p :: pre) = 1 + depth pre := by rw [← h1]; exact depth_append [p] pre
    rcases List.append_eq_append_iff.mp he' with ⟨a, ha, hb'⟩ | ⟨a, ha, hb'⟩
    · cases a with
      | nil =>
        simp at hb'
        rw [hb'.1, ht] at hr
        exact absurd hr (by decide)
      | cons x a => simp at hb'
    · have := hb.2 pre a ha
      omega

/-- In parentheses the commas do not count. -/
example : reassert [] [⟨"", "("⟩, ⟨"", "same"⟩, ⟨"", "<"⟩, ⟨"", "A"⟩, ⟨"", ","⟩, ⟨" ", "B"⟩, ⟨"", ">"⟩, ⟨"", ")"⟩] =
    .assertImpl [⟨"", "("⟩, ⟨"", "same"⟩, ⟨"", "<"⟩, ⟨"", "A"⟩, ⟨"", ","⟩, ⟨" ", "B"⟩, ⟨"", ">"⟩, ⟨"", ")"⟩] "(same<A, B>)" none := by decide

/-- C99.  The text shown is the source text of the condition, if that is on one line without comments and names no macro. -/
theorem c99_verbatim_partial (ms : Macros) (c : List Tok) (h : NoTopComma c) (hm : ∀ t ∈ c, ms.lookup t.text = none)
    (hs : ∀ t ∈ c.tail, t.space = "" ∨ t.space = " ") : reassert ms c = .assertImpl c (sourceText c) none := by
  have he := expand_none ms c hm
  rw [c99_one ms c (by rwa [he]), he]
  congr 1
  cases c with
  | nil => rfl
  | cons t ts =>
    simp only [stringize, sourceText]
    congr 2
    refine List.map_congr_left fun u hu => ?_
    rcases hs u hu with e | e <;> simp [e]

/-- C99 fails as documented: the condition is not copied verbatim if a macro is named in it or it is broken over lines. -/
theorem c99_not_verbatim :
    (∃ (ms : Macros) (c : List Tok), sourceText c = "x < M_PI" ∧ reassert ms c = .assertImpl (expand ms c) "x < 3.14159265358979323846" none) ∧
    (∃ c : List Tok, sourceText c = "ok(\n  a)" ∧ reassert [] c = .assertImpl c "ok( a)" none) :=
  ⟨⟨[("M_PI", [⟨"", "3.14159265358979323846"⟩])], [⟨"", "x"⟩, ⟨" ", "<"⟩, ⟨" ", "M_PI"⟩], by decide, by decide⟩,
   ⟨[⟨"", "ok"⟩, ⟨"", "("⟩, ⟨"\n  ", "a"⟩, ⟨"", ")"⟩], by decide, by decide⟩⟩

/-- C99.  The documented example. -/
example : reassert [] [⟨"", "2"⟩, ⟨" ", "+"⟩, ⟨" ", "2"⟩, ⟨" ", "=="⟩, ⟨" ", "5"⟩] =
    .assertImpl [⟨"", "2"⟩, ⟨" ", "+"⟩, ⟨" ", "2"⟩, ⟨" ", "=="⟩, ⟨" ", "5"⟩] "2 + 2 == 5" none := by decide

/-- C99.  A comma between angle brackets or braces is one outside parentheses: the condition is cut off there. -/
theorem c99_template : reassert [] [⟨"", "same"⟩, ⟨"", "<"⟩, ⟨"", "A"⟩, ⟨"", ","⟩, ⟨" ", "B"⟩, ⟨"", ">"⟩] =
    .assertImpl [⟨"", "same"⟩, ⟨"", "<"⟩, ⟨"", "A"⟩] "same<A" (some [⟨" ", "B"⟩, ⟨"", ">"⟩]) := by decide

/-- C99.  With three arguments nothing is asserted: the third argument is called with all three. -/
theorem c99_three (ms : Macros) (args c m f : List Tok) (k₁ k₂ : Tok) (he : expand ms args = c ++ k₁ :: (m ++ k₂ :: f)) (h₁ : k₁.text = ",")
    (h₂ : k₂.text = ",") (hc : NoTopComma c) (hb : Balanced c) (hm : NoTopComma m) (hbm : Balanced m) (hf : NoTopComma f)
    (hf1 : f.map Tok.text ≠ ["REASSERT_1"]) (hf2 : f.map Tok.text ≠ ["REASSERT_2"]) :
    reassert ms args = .call f (expand ms args) := by
  rw [reassert, he, split_cons c _ k₁ hc hb h₁, split_cons m f k₂ hm hbm h₂, split_one f hf]
  simp [selectAsserter, hf1, hf2]

/-- Two messages: the condition is not tested. -/
example : reassert [] [⟨"", "ok"⟩, ⟨"", ","⟩, ⟨" ", "f"⟩, ⟨"", ","⟩, ⟨" ", "g"⟩] =
    .call [⟨" ", "g"⟩] [⟨"", "ok"⟩, ⟨"", ","⟩, ⟨" ", "f"⟩, ⟨"", ","⟩, ⟨" ", "g"⟩] := by decide

/-- C99.  An assertion throws exactly if its condition is false, and the exception shows file, line, condition and message; it is silent about
everything else.  Condition and message are each evaluated exactly once, the message also if the condition is true, so that their effects are
those of one evaluation of each, in one order or the other. -/
theorem c99_effects {S : Type} (messageFirst : Bool) (cond : S → Bool × S) (text file : String) (line : Int) (message : S → String × S) (s : S) :
    let r := assertCall messageFirst cond text file line message s
    (messageFirst = false → r.2 = (message (cond s).2).2 ∧
      r.1 = if (cond s).1 then .ok () else .throw (s!"<{file}:{line}> - ReAssertion failed: ({text}). Message: {(message (cond s).2).1}")) ∧
    (messageFirst = true → r.2 = (cond (message s).2).2 ∧
      r.1 = if (cond (message s).2).1 then .ok () else .throw (s!"<{file}:{line}> - ReAssertion failed: ({text}). Message: {(message s).1}")) := by
  constructor
  · rintro rfl
    refine ⟨rfl, ?_⟩
    simp only [assertCall, assertImpl, what]
    cases (cond s).1 <;> rfl
  · rintro rfl
    refine ⟨rfl, ?_⟩
    simp only [assertCall, assertImpl, what]
    cases (cond (message s).2).1 <;> rfl

/-- A message that counts its evaluations is evaluated although the condition holds. -/
example : assertCall false (fun n : Nat => (true, n)) "true" "f.cc" 7 (fun n => ("no", n + 1)) 0 = (.ok (), 1) := rfl

/-- What a failed assertion says. -/
example : assertCall false (fun n : Nat => (false, n)) "some_other_condition" "path/to/source.cc" 7 (fun n => ("Some failure message.", n)) 0 =
    (.throw "<path/to/source.cc:7> - ReAssertion failed: (some_other_condition). Message: Some failure message.", 0) := by decide

/-! ## Instances of the theorems above -/

/-- To look for commas outside parentheses it is enough to look at each position. -/
theorem noTopComma_of_positions (ts : List Tok) (h : ∀ i : Fin ts.length, ts[i].text = "," → depth (ts.take i) ≠ 0) : NoTopComma ts := by
  rintro pre t post rfl ht
  have := h ⟨pre.length, by simp⟩ (by simpa using ht)
  simpa using this

/-- `c99_verbatim_partial` on the condition `f(a, b) < c`, with a macro that does not occur in it. -/
example : reassert [("M_PI", [⟨"", "3.14159265358979323846"⟩])]
      [⟨"", "f"⟩, ⟨"", "("⟩, ⟨"", "a"⟩, ⟨"", ","⟩, ⟨" ", "b"⟩, ⟨"", ")"⟩, ⟨" ", "<"⟩, ⟨" ", "c"⟩] =
    .assertImpl [⟨"", "f"⟩, ⟨"", "("⟩, ⟨"", "a"⟩, ⟨"", ","⟩, ⟨" ", "b"⟩, ⟨"", ")"⟩, ⟨" ", "<"⟩, ⟨" ", "c"⟩]
      (sourceText [⟨"", "f"⟩, ⟨"", "("⟩, ⟨"", "a"⟩, ⟨"", ","⟩, ⟨" ", "b"⟩, ⟨"", ")"⟩, ⟨" ", "<"⟩, ⟨" ", "c"⟩]) none :=
  c99_verbatim_partial _ _ (noTopComma_of_positions _ (by decide)) (by decide) (by decide)

/-- `c99_one` on a condition that is all in a macro. -/
example : reassert [("BOTH", [⟨"", "ok"⟩, ⟨" ", "&&"⟩, ⟨" ", "fine"⟩])] [⟨"", "BOTH"⟩] =
    .assertImpl [⟨"", "ok"⟩, ⟨" ", "&&"⟩, ⟨" ", "fine"⟩] "ok && fine" none :=
  c99_one _ _ (noTopComma_of_positions _ (by decide))

end Verif.Props
