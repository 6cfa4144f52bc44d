import Verif.Model.TestDirectory
import Verif.Spec.Path
import Verif.Props.Uuid
/-! # Lemmas on test directories -/
namespace Verif.TestDirectory
open Verif.Spec

theorem names_of_no_slash {s : List Char} (h : '/' ∉ s) : names s = [s] := by
  induction s with
  | nil => rfl
  | cons c s ih =>
    have hc : c ≠ '/' := by rintro rfl; exact h (by simp)
    rw [names, if_neg hc, ih (by intro hm; exact h (by simp [hm]))]

theorem names_append_no_slash {s t : List Char} (h : '/' ∉ s) : ∃ n ns, names (s ++ t) = (s ++ n) :: ns := by
  induction s with
  | nil =>
    cases t with
    | nil => exact ⟨[], [], rfl⟩
    | cons c t =>
      by_cases hc : c = '/'
      · exact ⟨[], names t, by simp [names, hc]⟩
      · rw [List.nil_append, names, if_neg hc]
        split
        · exact ⟨_, _, rfl⟩
        · exact ⟨_, _, rfl⟩
  | cons c s ih =>
    have hc : c ≠ '/' := by rintro rfl; exact h (by simp)
    obtain ⟨n, ns, e⟩ := ih (by intro hm; exact h (by simp [hm]))
    exact ⟨n, ns, by rw [List.cons_append, names, if_neg hc, e]; rfl⟩

theorem hexDigit_ne_slash : ∀ n : Fin 16, Uuid.hexDigit n ≠ '/' := by decide

theorem uuid_no_slash (u : Uuid) : '/' ∉ u.toStr := by
  obtain ⟨bs, hl⟩ := u
  match bs, hl with
  | [b0, b1, b2, b3, b4, b5, b6, b7, b8, b9, b10, b11, b12, b13, b14, b15], _ =>
    simp [Uuid.toStr, Uuid.unparseFrom, (hexDigit_ne_slash _).symm]

theorem uuid_length (u : Uuid) : u.toStr.length = 36 := by
  obtain ⟨bs, hl⟩ := u
  match bs, hl with
  | [b0, b1, b2, b3, b4, b5, b6, b7, b8, b9, b10, b11, b12, b13, b14, b15], _ => simp [Uuid.toStr, Uuid.unparseFrom]

theorem uuid_toStr_inj {u v : Uuid} (h : u.toStr = v.toStr) : u = v := by
  have hu := Props.c17_print_parse u
  rw [h, Props.c17_print_parse v] at hu
  injection hu with hu
  exact hu.symm

theorem construct_ok {tmp : Path} {fs fs' : Fs} {u : Uuid} {p : Path} (h : construct tmp fs u = .ok (p, fs')) :
    fs tmp = some .dir ∧ p = tmp ++ [u.toStr] ∧ fs p = none ∧ fs' = fun q => if q = p then some .dir else fs q := by
  unfold construct tempDirectoryPath at h
  by_cases ht : fs tmp = some .dir
  · rw [if_pos ht, Outcome.ok_bind, names_of_no_slash (uuid_no_slash u)] at h
    unfold createDirectory at h
    simp only [List.dropLast_concat, ht] at h
    cases hp : fs (tmp ++ [u.toStr]) with
    | none =>
      simp only [hp, Outcome.ok_bind, Outcome.reassert_true, Outcome.pure_eq] at h
      injection h with h
      injection h with h1 h2
      subst h1
      exact ⟨ht, rfl, hp, h2.symm⟩
    | some n =>
      cases n with
      | file t => simp only [hp, Outcome.throw_bind] at h; cases h
      | dir =>
        simp only [hp, Outcome.ok_bind] at h
        rw [Outcome.reassert_false (by simp), Outcome.throw_bind] at h
        cases h
  · rw [if_neg ht, Outcome.throw_bind] at h
    cases h

theorem construct_of {tmp : Path} {fs : Fs} {u : Uuid} (ht : fs tmp = some .dir) (hp : fs (tmp ++ [u.toStr]) = none) :
    construct tmp fs u = .ok (tmp ++ [u.toStr], fun q => if q = tmp ++ [u.toStr] then some .dir else fs q) := by
  unfold construct tempDirectoryPath createDirectory
  rw [if_pos ht, Outcome.ok_bind, names_of_no_slash (uuid_no_slash u)]
  simp only [List.dropLast_concat, ht, hp, Outcome.ok_bind, Outcome.reassert_true, Outcome.pure_eq]

theorem construct_throw {tmp : Path} {fs : Fs} {u : Uuid} (h : ¬ (fs tmp = some .dir ∧ fs (tmp ++ [u.toStr]) = none)) :
    (construct tmp fs u).IsThrow := by
  unfold construct tempDirectoryPath createDirectory
  by_cases ht : fs tmp = some .dir
  · have hp : fs (tmp ++ [u.toStr]) ≠ none := fun hp => h ⟨ht, hp⟩
    rw [if_pos ht, Outcome.ok_bind, names_of_no_slash (uuid_no_slash u)]
    simp only [List.dropLast_concat, ht]
    cases hq : fs (tmp ++ [u.toStr]) with
    | none => exact absurd hq hp
    | some n =>
      cases n with
      | file t => exact ⟨_, rfl⟩
      | dir =>
        simp only [Outcome.ok_bind]
        rw [Outcome.reassert_false (by simp), Outcome.throw_bind]
        exact ⟨_, rfl⟩
  · rw [if_neg ht, Outcome.throw_bind]
    exact ⟨_, rfl⟩

/-- What stays true: the directories are there, each directly below the temporary directory, and no two objects have the same name or path. -/
structure Inv (tmp : Path) (s : State) : Prop where
  there : ∀ o ∈ s.live, s.fs o.2 = some .dir
  below : ∀ o ∈ s.live, ∃ u : Uuid, o.2 = tmp ++ [u.toStr]
  objects : (s.live.map Prod.fst).Nodup
  paths : (s.live.map Prod.snd).Nodup

theorem not_below {tmp : Path} {a b : List Char} (h : a ≠ b) : ¬ (tmp ++ [a]) <+: (tmp ++ [b]) := by
  rw [List.prefix_append_right_inj]
  intro hp
  exact h (by simpa using hp)

theorem inv {tmp : Path} {s : State} (h : Reachable tmp s) : Inv tmp s := by
  induction h with
  | start fs => exact ⟨by simp, by simp, by simp, by simp⟩
  | step hs hstep ih =>
    cases hstep with
    | made i u p fs' hi hc =>
      obtain ⟨ht, hp, hn, hfs⟩ := construct_ok hc
      have hnew : p ∉ (List.map Prod.snd _) := fun hm => by
        obtain ⟨o, ho, hop⟩ := List.mem_map.mp hm
        have := ih.there o ho
        rw [hop, hn] at this
        cases this
      refine ⟨?_, ?_, ?_, ?_⟩
      · intro o ho
        rcases List.mem_cons.mp ho with rfl | ho
        · simp [hfs]
        · rw [hfs]
          dsimp only
          split
          · rfl
          · exact ih.there o ho
      · intro o ho
        rcases List.mem_cons.mp ho with rfl | ho
        · exact ⟨u, hp⟩
        · exact ih.below o ho
      · exact List.nodup_cons.mpr ⟨hi, ih.objects⟩
      · exact List.nodup_cons.mpr ⟨hnew, ih.paths⟩
    | failed u hu => exact ih
    | destroyed i p hm =>
      refine ⟨?_, fun o ho => ih.below o (List.mem_of_mem_filter ho), ?_, ?_⟩
      · intro o ho
        obtain ⟨ho, hne⟩ := List.mem_filter.mp ho
        have hne : o.1 ≠ i := by simpa using hne
        obtain ⟨u, hu⟩ := ih.below o ho
        obtain ⟨v, hv⟩ := ih.below _ hm
        dsimp only at hv
        show removeAll _ p o.2 = some .dir
        unfold removeAll
        rw [if_neg, ih.there o ho]
        rw [hu, hv]
        apply not_below
        intro huv
        have : o.2 = (i, p).2 := by rw [hu, ← huv]; exact hv.symm
        exact hne (congrArg Prod.fst (List.inj_on_of_nodup_map ih.paths ho hm this))
      · exact ih.objects.sublist (List.Sublist.map _ List.filter_sublist)
      · exact ih.paths.sublist (List.Sublist.map _ List.filter_sublist)
    | changed fs' hf => exact ⟨hf, ih.below, ih.objects, ih.paths⟩

end Verif.TestDirectory
