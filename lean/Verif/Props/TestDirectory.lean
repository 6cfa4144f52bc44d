import Verif.Proofs.TestDirectory
/-! # C101: directories of tests -/
namespace Verif.Props
open Verif.TestDirectory Verif.Spec

/-- C101.  A test directory is made exactly if the temporary directory is there and nothing has the new name; it is directly in the temporary directory,
it is there afterwards, and nothing else is changed.  Otherwise the constructor throws. -/
theorem c101_construct (tmp : Path) (fs : Fs) (u : Uuid) :
    (fs tmp = some .dir ∧ fs (tmp ++ [u.toStr]) = none → ∃ p fs', construct tmp fs u = .ok (p, fs') ∧ p = tmp ++ [u.toStr] ∧
      fs' p = some .dir ∧ ∀ q, q ≠ p → fs' q = fs q) ∧
    (¬ (fs tmp = some .dir ∧ fs (tmp ++ [u.toStr]) = none) → (construct tmp fs u).IsThrow) :=
  ⟨fun h => ⟨_, _, construct_of h.1 h.2, rfl, by simp, fun q hq => by simp [hq]⟩, construct_throw⟩

/-- C101.  Whatever identifiers the generator gives, the same one twice included, and whatever else happens to the file system: the directory of each living
object is there, and nothing of the directory of one is in that of another. -/
theorem c101_apart (tmp : Path) (s : State) (h : Reachable tmp s) :
    (∀ o ∈ s.live, s.fs o.2 = some .dir) ∧
    ∀ o ∈ s.live, ∀ o' ∈ s.live, o.1 ≠ o'.1 → ∀ q, ¬ (AtOrBelow o.2 q ∧ AtOrBelow o'.2 q) := by
  have hi := inv h
  refine ⟨hi.there, fun o ho o' ho' hne q => ?_⟩
  rintro ⟨⟨r, hr⟩, r', hr'⟩
  obtain ⟨u, hu⟩ := hi.below o ho
  obtain ⟨v, hv⟩ := hi.below o' ho'
  have e : tmp ++ ([u.toStr] ++ r) = tmp ++ ([v.toStr] ++ r') := by
    rw [← List.append_assoc, ← List.append_assoc, ← hu, ← hv, ← hr, ← hr']
  have e := List.append_cancel_left e
  simp only [List.singleton_append, List.cons.injEq] at e
  exact hne (congrArg Prod.fst (List.inj_on_of_nodup_map hi.paths ho ho' (by rw [hu, hv, e.1])))

/-- C101.  The destructor of an object removes what is in its directory and the directory, and changes nothing else; in particular nothing in the directory
of another object. -/
theorem c101_destroy (tmp : Path) (s : State) (h : Reachable tmp s) (i : ℕ) (p : Path) (hm : (i, p) ∈ s.live) :
    ∃ t, Step tmp s t ∧ (∀ o, o ∈ t.live ↔ o ∈ s.live ∧ o.1 ≠ i) ∧ (∀ q, AtOrBelow p q → t.fs q = none) ∧
      (∀ q, ¬ AtOrBelow p q → t.fs q = s.fs q) ∧ ∀ o ∈ t.live, ∀ q, AtOrBelow o.2 q → t.fs q = s.fs q := by
  have key : ∀ q, ¬ AtOrBelow p q → destroy s.fs p q = s.fs q := by
    intro q hq
    unfold destroy removeAll
    rw [if_neg]
    rintro ⟨r, hr⟩
    exact hq ⟨r, hr.symm⟩
  refine ⟨_, Step.destroyed i p hm, fun o => by simp, ?_, key, ?_⟩
  · rintro q ⟨r, rfl⟩
    show removeAll _ _ _ = none
    unfold removeAll
    rw [if_pos (List.prefix_append _ _)]
  · intro o ho q hq
    obtain ⟨ho, hne⟩ := List.mem_filter.mp ho
    exact key q fun hp => (c101_apart tmp s h).2 o ho _ hm (by simpa using hne) q ⟨hq, hp⟩

/-- C101.  If tests write only in their directory, the file system is after the destructor what it was before the constructor. -/
theorem c101_restores (tmp : Path) (fs fs₁ fs₂ : Fs) (u : Uuid) (p : Path) (hr : Rooted fs) (h : construct tmp fs u = .ok (p, fs₁))
    (hw : ∀ q, ¬ AtOrBelow p q → fs₂ q = fs₁ q) : destroy fs₂ p = fs := by
  obtain ⟨-, -, hn, rfl⟩ := construct_ok h
  funext q
  unfold destroy removeAll
  split
  · rename_i hp
    obtain ⟨r, hr'⟩ := hp
    exact (hr p q ⟨r, hr'.symm⟩ hn).symm
  · rename_i hp
    rw [hw q (fun ⟨r, hr⟩ => hp ⟨r, hr.symm⟩)]
    dsimp only
    rw [if_neg]
    rintro rfl
    exact hp (List.prefix_refl _)

/-- C101.  The path of a test file with an extension that has no `/` is directly in the directory, and its name has this extension (if there is no dot in
it) or no extension if none is asked for. -/
theorem c101_file_path (path : Path) (u : Uuid) (ext : List Char) (hs : '/' ∉ ext) :
    ∃ name, testFilePath path u ext = path ++ [name] ∧ u.toStr <+: name ∧
      (ext ≠ [] → '.' ∉ ext → IsExtension name ext) ∧ (ext = [] → ∀ e, ¬ IsExtension name e) := by
  by_cases he : ext = []
  · refine ⟨u.toStr, by rw [testFilePath, if_pos he, names_of_no_slash (uuid_no_slash u)], List.prefix_refl _, fun h => absurd he h, ?_⟩
    rintro - e ⟨-, stem, h⟩
    have hd : '.' ∉ u.toStr := by
      have hx : ∀ n : Fin 16, '.' ≠ Uuid.hexDigit n := by decide
      obtain ⟨bs, hl⟩ := u
      match bs, hl with
      | [b0, b1, b2, b3, b4, b5, b6, b7, b8, b9, b10, b11, b12, b13, b14, b15], _ =>
        simp [Uuid.toStr, Uuid.unparseFrom, hx]
    exact hd (by rw [h]; simp)
  · refine ⟨u.toStr ++ ['.'] ++ ext, ?_, ⟨'.' :: ext, by simp⟩, fun _ hd => ⟨hd, u.toStr, by simp⟩, fun h => absurd h he⟩
    rw [testFilePath, if_neg he, names_of_no_slash]
    simp only [List.mem_append, not_or]
    exact ⟨⟨uuid_no_slash u, by decide⟩, hs⟩

/-- C101.  Paths made with different identifiers, or in the directories of different objects, differ, whatever the extensions. -/
theorem c101_file_path_unique (tmp : Path) (s : State) (h : Reachable tmp s) (o o' : ℕ × Path) (ho : o ∈ s.live) (ho' : o' ∈ s.live) (u u' : Uuid)
    (ext ext' : List Char) (hne : o.1 ≠ o'.1 ∨ u ≠ u') : testFilePath o.2 u ext ≠ testFilePath o'.2 u' ext' := by
  have key : ∀ (path : Path) (v : Uuid) (e : List Char), ∃ n ns, testFilePath path v e = path ++ (v.toStr ++ n) :: ns := by
    intro path v e
    by_cases he : e = []
    · exact ⟨[], [], by rw [testFilePath, if_pos he, names_of_no_slash (uuid_no_slash v), List.append_nil]⟩
    · obtain ⟨n, ns, hn⟩ := names_append_no_slash (t := ['.'] ++ e) (uuid_no_slash v)
      exact ⟨n, ns, by rw [testFilePath, if_neg he, List.append_assoc, hn]⟩
  obtain ⟨n, ns, e⟩ := key o.2 u ext
  obtain ⟨n', ns', e'⟩ := key o'.2 u' ext'
  intro heq
  by_cases hi : o.1 = o'.1
  · have hoo : o = o' := List.inj_on_of_nodup_map (inv h).objects ho ho' hi
    subst hoo
    rw [e, e'] at heq
    have := List.append_cancel_left heq
    simp only [List.cons.injEq] at this
    have h2 := (List.append_inj this.1 (by rw [uuid_length, uuid_length])).1
    rcases hne with hne | hne
    · exact hne rfl
    · exact hne (uuid_toStr_inj h2)
  · exact (c101_apart tmp s h).2 o ho o' ho' hi _ ⟨⟨_, e⟩, ⟨_, by rw [heq]; exact e'⟩⟩

/-- C101 needs this of the extension: with `/` in it the path is not directly in the directory. -/
theorem c101_file_path_slash (path : Path) (u : Uuid) : ¬ ∃ name, testFilePath path u "a/b".toList = path ++ [name] := by
  rintro ⟨name, h⟩
  obtain ⟨n, ns, hn⟩ : ∃ n m, names (u.toStr ++ ['.'] ++ "a/b".toList) = [n, m] := by
    have : ∀ s : List Char, '/' ∉ s → ∀ t, names (s ++ '/' :: t) = s :: names t := by
      intro s
      induction s with
      | nil => intro _ t; simp [names]
      | cons c s ih =>
        intro hs t
        have hc : c ≠ '/' := by rintro rfl; exact hs (by simp)
        rw [List.cons_append, names, if_neg hc, ih (by intro hm; exact hs (by simp [hm]))]
    refine ⟨u.toStr ++ ".a".toList, ['b'], ?_⟩
    have := this (u.toStr ++ ".a".toList) (by simp only [List.mem_append, not_or]; exact ⟨uuid_no_slash u, by decide⟩) ['b']
    rw [show u.toStr ++ ['.'] ++ "a/b".toList = u.toStr ++ ".a".toList ++ '/' :: ['b'] by simp, this]
    rfl
  rw [testFilePath, if_neg (by decide), hn] at h
  have := List.append_cancel_left h
  simp at this

/-- A file system with a temporary directory, in which two test directories are made, one after an attempt with a name that is taken, and the first is
destroyed. -/
example : ∃ s : State, Reachable ["tmp".toList] s ∧ s.live = [(1, ["tmp".toList, (⟨List.replicate 16 7, rfl⟩ : Uuid).toStr])] := by
  let fs : Fs := fun q => if q = [] ∨ q = ["tmp".toList] then some .dir else none
  let u : Uuid := Uuid.null
  let v : Uuid := ⟨List.replicate 16 7, rfl⟩
  obtain ⟨p, fs₁, h1, hp, hd, ho⟩ := (c101_construct ["tmp".toList] fs u).1 ⟨by simp [fs], by simp [fs]⟩
  have hne : ["tmp".toList] ++ [v.toStr] ≠ p := by
    rw [hp]
    intro h
    have := List.append_cancel_left h
    simp only [List.cons.injEq, and_true] at this
    exact absurd (uuid_toStr_inj this) (by decide)
  have ht : ["tmp".toList] ≠ p := by rw [hp]; simp
  obtain ⟨q, fs₂, h2, hq, -, -⟩ := (c101_construct ["tmp".toList] fs₁ v).1 ⟨by rw [ho _ ht]; simp [fs], by rw [ho _ hne]; simp [fs]⟩
  have r1 : Reachable ["tmp".toList] ⟨fs₁, [(0, p)]⟩ := .step (.start fs) (.made 0 u p fs₁ (by simp) h1)
  have r2 : Reachable ["tmp".toList] ⟨fs₁, [(0, p)]⟩ := .step r1 (.failed u (construct_throw (by
    rintro ⟨-, h⟩
    rw [← hp] at h
    exact absurd (h.symm.trans hd) (by simp))))
  have r3 : Reachable ["tmp".toList] ⟨fs₂, [(1, q), (0, p)]⟩ := .step r2 (.made 1 v q fs₂ (by simp) h2)
  refine ⟨_, .step r3 (.destroyed 0 p (by simp)), ?_⟩
  rw [hq]
  rfl

/-- A file system in which nothing is below what does not exist. -/
example : Rooted (fun q : Path => if q = [] ∨ q = ["tmp".toList] then some Node.dir else none) := by
  rintro p q ⟨r, rfl⟩ h
  by_contra hq
  have hq : p ++ r = [] ∨ p ++ r = ["tmp".toList] := by
    by_contra hn
    exact hq (if_neg hn)
  have hp : ¬ (p = [] ∨ p = ["tmp".toList]) := by
    intro hp
    dsimp only at h
    rw [if_pos hp] at h
    cases h
  rcases hq with hq | hq
  · exact hp (Or.inl (by simp at hq; exact hq.1))
  · rcases List.append_eq_singleton_iff.mp hq with ⟨hq, -⟩ | ⟨hq, -⟩
    · exact hp (Or.inl hq)
    · exact hp (Or.inr hq)

end Verif.Props
