import Verif.Model.StatusExample
import Verif.Props.Status
/-! # Property C19 for the shipped example of error handling -/
namespace Verif.Props
open Verif.StatusExample

/-- C19.  The wrapping subroutine does what the comment beside it says: it returns the status of the subroutine, okay exactly for the good
argument, and prints nothing. -/
theorem c19_example_wrapping (arg : Arg) (out : List Int) :
    ∃ s, myWrappingSubroutine arg out = .ok (out, s) ∧ s = mySubroutine arg ∧ (s.ok = true ↔ arg = .good) ∧
      (arg = .bad → s.what = "<resim/examples/assert_and_status.cc:116> Oh no! We failed!") := by
  cases arg
  · exact ⟨.okay, rfl, rfl, by decide, by simp⟩
  · exact ⟨mySubroutine .bad, rfl, rfl, by decide, fun _ => by decide +kernel⟩

/-- C19.  The functions of the example that take a value from a call are undefined for either argument, hence so is the whole example, although
everything before the first of these calls passes its assertions. -/
theorem c19_example_undefined (arg : Arg) (out : List Int) :
    (myReturningWrapper .direct arg).IsUB ∧ (myOuterWrapper .direct arg out).IsUB ∧ mainBefore out = .ok out ∧ (main .direct).IsUB := by
  cases arg
  all_goals exact ⟨⟨_, rfl⟩, ⟨_, rfl⟩, rfl, ⟨_, rfl⟩⟩

/-- C19.  With the results of the calls put in variables first, the example does what its comments say: the wrapper returns twice the value three or
the status of the subroutine, the outer wrapper prints six and is okay or returns that status and prints nothing, and the program prints
six once and exits with zero. -/
theorem c19_example_named_partial (out : List Int) :
    myReturningWrapper .named .good = .ok (.value 6) ∧
    (∃ s, myReturningWrapper .named .bad = .ok (.status s) ∧ myReturningSubroutine .bad = .ok (.status s) ∧
      myOuterWrapper .named .bad out = .ok (out, s) ∧ s.ok = false) ∧
    myOuterWrapper .named .good out = .ok (6 :: out, .okay) ∧
    main .named = .ok ([6], 0) := by
  refine ⟨rfl, ⟨_, rfl, rfl, rfl, rfl⟩, rfl, rfl⟩

/-- The subroutine that the functions above rest on fails for the bad argument and gives three for the good one. -/
example : myReturningSubroutine .good = .ok (.value 3) ∧ (mySubroutine .bad).ok = false := ⟨rfl, rfl⟩

end Verif.Props
