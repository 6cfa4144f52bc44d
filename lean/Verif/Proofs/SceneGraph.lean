import Verif.Spec.SceneGraph
import Verif.Proofs.Frame
import Verif.Proofs.SO3Algebra
/-! # Lemmas about scenes of framed transforms -/
namespace Verif.SceneGraph
open Spec Framed Matrix

theorem act_eq (a : Pose) (p : V3) : SE3.act a p = fun i => (∑ j, a.1 i j * p j) + a.2 i := rfl

theorem act_mul (a b : Pose) (p : V3) : SE3.act (SE3.mul a b) p = SE3.act a (SE3.act b p) := by
  simp only [SE3.act, SE3.mul, SO3.act, SO3.mul, mulVec_add, mulVec_mulVec]
  abel

theorem act_inv {a : Pose} (h : IsRotation a.1) (p : V3) : SE3.act a (SE3.act (SE3.inv a) p) = p := by
  have h' : a.1 * a.1ᵀ = 1 := mul_eq_one_comm.mp h.orth
  simp only [SE3.act, SE3.inv, SO3.act, SO3.inv, mulVec_add, mulVec_mulVec, h', one_mulVec]
  abel

theorem inv_act {a : Pose} (h : IsRotation a.1) (p : V3) : SE3.act (SE3.inv a) (SE3.act a p) = p := by
  simp only [SE3.act, SE3.inv, SO3.act, SO3.inv, mulVec_add, mulVec_mulVec, h.orth, one_mulVec, mulVec_neg]
  abel

theorem act_ext {a b : Pose} (h : ∀ p, SE3.act a p = SE3.act b p) : a = b := by
  have h0 := h 0
  simp only [SE3.act, SO3.act, mulVec_zero, zero_add] at h0
  refine Prod.ext ?_ h0
  ext i j
  have h1 := congrFun (h (Pi.single j 1)) i
  simp only [SE3.act, SO3.act, Pi.add_apply, mulVec_single, MulOpposite.op_one, one_smul, h0] at h1
  simpa using h1

theorem act_one (p : V3) : SE3.act (1, 0) p = p := by simp [SE3.act, SO3.act]

/-- Expressions evaluate exactly if their frames fit. -/
theorem eval_cases (e : Expr) (h : ∀ l ∈ e.links, l.into ≠ Frame.null ∧ l.src ≠ Frame.null) :
    (∀ i s, ends e = some (i, s) → (i ≠ Frame.null ∧ s ≠ Frame.null) ∧ ∃ g, e.eval = .ok ⟨g, i, s⟩) ∧ (ends e = none → e.eval.IsThrow) := by
  induction e with
  | link l =>
    refine ⟨?_, by simp [ends]⟩
    rintro i s hi
    simp only [ends, Option.some.injEq, Prod.mk.injEq] at hi
    obtain ⟨rfl, rfl⟩ := hi
    exact ⟨h l (by simp [Expr.links]), l.val, rfl⟩
  | inverse e ih =>
    obtain ⟨h1, h2⟩ := ih h
    rcases he : ends e with _ | ⟨i', s'⟩
    · obtain ⟨m, hm⟩ := h2 he
      exact ⟨by simp [ends, he], fun _ => ⟨m, by simp [Expr.eval, hm]⟩⟩
    · obtain ⟨⟨n1, n2⟩, g, hg⟩ := h1 i' s' he
      refine ⟨?_, by simp [ends, he]⟩
      rintro i s hi
      simp only [ends, he, Option.map_some, Option.some.injEq, Prod.mk.injEq] at hi
      obtain ⟨rfl, rfl⟩ := hi
      refine ⟨⟨n2, n1⟩, SE3.ops.inv g, ?_⟩
      simp only [Expr.eval, hg, Outcome.ok_bind, Framed.inverse]
      exact mk'_ok (by simp [n1, n2])
  | mul a b iha ihb =>
    obtain ⟨a1, a2⟩ := iha fun l hl => h l (by simp [Expr.links, hl])
    obtain ⟨b1, b2⟩ := ihb fun l hl => h l (by simp [Expr.links, hl])
    rcases ha : ends a with _ | ⟨i1, s1⟩
    · obtain ⟨m, hm⟩ := a2 ha
      exact ⟨by simp [ends, ha], fun _ => ⟨m, by simp [Expr.eval, hm]⟩⟩
    obtain ⟨⟨n1, n2⟩, g, hg⟩ := a1 i1 s1 ha
    rcases hb : ends b with _ | ⟨i2, s2⟩
    · obtain ⟨m, hm⟩ := b2 hb
      exact ⟨by simp [ends, ha, hb], fun _ => ⟨m, by simp [Expr.eval, hm, hg]⟩⟩
    obtain ⟨⟨n3, n4⟩, k, hk⟩ := b1 i2 s2 hb
    by_cases e : s1 = i2
    · refine ⟨?_, by simp [ends, ha, hb, e]⟩
      rintro i s hi
      simp only [ends, ha, hb, e, if_true, Option.some.injEq, Prod.mk.injEq] at hi
      obtain ⟨rfl, rfl⟩ := hi
      refine ⟨⟨n1, n4⟩, SE3.ops.mul g k, ?_⟩
      simp only [Expr.eval, hg, hk, Outcome.ok_bind]
      exact mul_framed SE3.ops (a := ⟨g, i1, s1⟩) (b := ⟨k, i2, s2⟩) n1 n3 n4 e
    · refine ⟨by simp [ends, ha, hb, e], fun _ => ⟨"Inner frames must match for valid composition", ?_⟩⟩
      simp only [Expr.eval, hg, hk, Outcome.ok_bind]
      exact mul_mismatch SE3.ops (a := ⟨g, i1, s1⟩) (b := ⟨k, i2, s2⟩) n1 n3 e

theorem eval_ends {e : Expr} (h : ∀ l ∈ e.links, l.into ≠ Frame.null ∧ l.src ≠ Frame.null) {g : Framed Pose} (hg : e.eval = .ok g) :
    ends e = some (g.into, g.src) := by
  obtain ⟨h1, h2⟩ := eval_cases e h
  rcases he : ends e with _ | ⟨i, s⟩
  · obtain ⟨m, hm⟩ := h2 he
    rw [hm] at hg; cases hg
  · obtain ⟨-, g', hg'⟩ := h1 i s he
    rw [hg'] at hg
    cases hg; rfl

/-- What is computed from transforms that agree with places agrees with them. -/
theorem eval_agrees (P : Frame → Pose) (e : Expr) (h : ∀ l ∈ e.links, Link l)
    (ha : ∀ l ∈ e.links, Agrees (fun f => SE3.act (P f)) l) (g : Framed Pose) (hg : e.eval = .ok g) :
    Link g ∧ Agrees (fun f => SE3.act (P f)) g := by
  induction e generalizing g with
  | link l =>
    cases hg
    exact ⟨h l (by simp [Expr.links]), ha l (by simp [Expr.links])⟩
  | inverse e ih =>
    rcases he : e.eval with a | m | m
    · obtain ⟨⟨n1, n2, r⟩, k⟩ := ih h ha a he
      simp only [Expr.eval, he, Outcome.ok_bind, Framed.inverse, mk'_eq_ok_iff] at hg
      obtain ⟨-, rfl⟩ := hg
      refine ⟨⟨n2, n1, SO3.isRotation_transpose r⟩, fun p => ?_⟩
      have := k (SE3.act (SE3.inv a.val) p)
      rw [← act_eq, act_inv r] at this
      exact this.symm
    · simp [Expr.eval, he] at hg
    · simp [Expr.eval, he] at hg
  | mul a b iha ihb =>
    rcases hea : a.eval with x | m | m
    · rcases heb : b.eval with y | m | m
      · obtain ⟨⟨n1, n2, r⟩, k⟩ := iha (fun l hl => h l (by simp [Expr.links, hl])) (fun l hl => ha l (by simp [Expr.links, hl])) x hea
        obtain ⟨⟨n3, n4, r'⟩, k'⟩ := ihb (fun l hl => h l (by simp [Expr.links, hl])) (fun l hl => ha l (by simp [Expr.links, hl])) y heb
        simp only [Expr.eval, hea, heb, Outcome.ok_bind] at hg
        by_cases e : x.src = y.into
        · rw [mul_framed SE3.ops n1 n3 n4 e] at hg
          cases hg
          refine ⟨⟨n1, n4, SO3.isRotation_mul r r'⟩, fun p => ?_⟩
          have k1 := k (SE3.act y.val p)
          have k2 := k' p
          rw [← act_eq] at k1 k2
          change SE3.act (P x.into) (SE3.act (SE3.mul x.val y.val) p) = SE3.act (P y.src) p
          rw [act_mul]
          exact k1.trans (by rw [e]; exact k2)
        · rw [mul_mismatch SE3.ops n1 n3 e] at hg; cases hg
      · simp [Expr.eval, hea, heb] at hg
      · simp [Expr.eval, hea, heb] at hg
    · simp [Expr.eval, hea] at hg
    · simp [Expr.eval, hea] at hg

theorem scene_links {root : Frame} {ls : List (Framed Pose)} (h : Scene root ls) : ∀ l ∈ ls, Link l := by
  induction h with
  | nil => simp
  | child l _ hl _ _ ih => simpa using ⟨hl, ih⟩
  | parent l _ hl _ _ ih => simpa using ⟨hl, ih⟩

theorem known_cons {root : Frame} {ls : List (Framed Pose)} (l : Framed Pose) (f : Frame) :
    Known root (l :: ls) f ↔ Known root ls f ∨ f = l.into ∨ f = l.src := by
  unfold Known
  simp only [List.mem_cons, exists_eq_or_imp]
  generalize (∃ a ∈ ls, f = a.into ∨ f = a.src) = q
  tauto

open Classical in
/-- The frames of a scene have places, the root the identity. -/
theorem scene_places {root : Frame} {ls : List (Framed Pose)} (h : Scene root ls) :
    ∃ P : Frame → Pose, (∀ f, IsRotation (P f).1) ∧ P root = (1, 0) ∧ ∀ l ∈ ls, Agrees (fun f => SE3.act (P f)) l := by
  induction h with
  | nil => exact ⟨fun _ => (1, 0), fun _ => SO3.isRotation_one, rfl, by simp⟩
  | @child ls l hs hl hi hn ih =>
    obtain ⟨P, hP, hr, ha⟩ := ih
    have other : ∀ f, Known root ls f → f ≠ l.src := fun f hf e => hn (e ▸ hf)
    refine ⟨Function.update P l.src (SE3.mul (P l.into) l.val), fun f => ?_, ?_, ?_⟩
    · by_cases e : f = l.src
      · subst e; rw [Function.update_self]; exact SO3.isRotation_mul (hP _) hl.2.2
      · rw [Function.update_of_ne e]; exact hP f
    · rw [Function.update_of_ne (other root (Or.inl rfl)), hr]
    · intro m hm p
      rcases List.mem_cons.mp hm with rfl | hm
      · simp only [Function.update_of_ne (other _ hi), Function.update_self]
        rw [act_mul]; rfl
      · simp only [Function.update_of_ne (other m.into (Or.inr ⟨m, hm, Or.inl rfl⟩)), Function.update_of_ne (other m.src (Or.inr ⟨m, hm, Or.inr rfl⟩))]
        exact ha m hm p
  | @parent ls l hs hl hi hn ih =>
    obtain ⟨P, hP, hr, ha⟩ := ih
    have other : ∀ f, Known root ls f → f ≠ l.into := fun f hf e => hn (e ▸ hf)
    refine ⟨Function.update P l.into (SE3.mul (P l.src) (SE3.inv l.val)), fun f => ?_, ?_, ?_⟩
    · by_cases e : f = l.into
      · subst e; rw [Function.update_self]; exact SO3.isRotation_mul (hP _) (SO3.isRotation_transpose hl.2.2)
      · rw [Function.update_of_ne e]; exact hP f
    · rw [Function.update_of_ne (other root (Or.inl rfl)), hr]
    · intro m hm p
      rcases List.mem_cons.mp hm with rfl | hm
      · simp only [Function.update_of_ne (other _ hi), Function.update_self]
        rw [← act_eq, act_mul, inv_act hl.2.2]
      · simp only [Function.update_of_ne (other m.into (Or.inr ⟨m, hm, Or.inl rfl⟩)), Function.update_of_ne (other m.src (Or.inr ⟨m, hm, Or.inr rfl⟩))]
        exact ha m hm p

/-- Places of known frames are determined by the links. -/
theorem places_unique {root : Frame} {ls : List (Framed Pose)} (h : Scene root ls) (u v : Frame → V3 → V3) (hr : u root = v root)
    (hu : ∀ l ∈ ls, Agrees u l) (hv : ∀ l ∈ ls, Agrees v l) (f : Frame) (hf : Known root ls f) : u f = v f := by
  induction h generalizing f with
  | nil =>
    rcases hf with rfl | ⟨l, hl, -⟩
    · exact hr
    · cases hl
  | @child ls l hs hl hi hn ih =>
    have ih' := fun f hf => ih (fun m hm => hu m (List.mem_cons_of_mem _ hm)) (fun m hm => hv m (List.mem_cons_of_mem _ hm)) f hf
    rcases (known_cons l f).mp hf with k | rfl | rfl
    · exact ih' f k
    · exact ih' _ hi
    · funext p
      rw [← hu l (by simp) p, ← hv l (by simp) p, ih' _ hi]
  | @parent ls l hs hl hi hn ih =>
    have ih' := fun f hf => ih (fun m hm => hu m (List.mem_cons_of_mem _ hm)) (fun m hm => hv m (List.mem_cons_of_mem _ hm)) f hf
    rcases (known_cons l f).mp hf with k | rfl | rfl
    · exact ih' f k
    · funext p
      have h1 := hu l (by simp) (SE3.act (SE3.inv l.val) p)
      have h2 := hv l (by simp) (SE3.act (SE3.inv l.val) p)
      rw [← act_eq, act_inv hl.2.2] at h1 h2
      rw [h1, h2, ih' _ hi]
    · exact ih' _ hi

/-- Any two frames of a scene are joined by an expression. -/
theorem scene_joined {root : Frame} {ls : List (Framed Pose)} (h : Scene root ls) (f g : Frame) (hf : Known root ls f) (hg : Known root ls g)
    (hne : f ≠ g) : ∃ e : Expr, (∀ l ∈ e.links, l ∈ ls) ∧ ends e = some (f, g) := by
  induction h generalizing f g with
  | nil =>
    rcases hf with rfl | ⟨l, hl, -⟩
    · rcases hg with rfl | ⟨l, hl, -⟩
      · exact absurd rfl hne
      · cases hl
    · cases hl
  | @child ls l hs hl hi hn ih =>
    -- from the new frame to an old one
    have out : ∀ f, Known root ls f → ∃ e : Expr, (∀ m ∈ e.links, m ∈ l :: ls) ∧ ends e = some (f, l.src) := by
      intro f hf
      by_cases e : f = l.into
      · exact ⟨.link l, by simp [Expr.links], by simp [ends, e]⟩
      · obtain ⟨x, hx, hx'⟩ := ih f l.into hf hi e
        refine ⟨.mul x (.link l), ?_, by simp [ends, hx']⟩
        intro m hm
        simp only [Expr.links, List.mem_append, List.mem_singleton] at hm
        rcases hm with hm | rfl
        · exact List.mem_cons_of_mem _ (hx m hm)
        · simp
    have old : ∀ f, Known root (l :: ls) f → f ≠ l.src → Known root ls f := by
      intro f hf e
      rcases (known_cons l f).mp hf with k | rfl | k
      · exact k
      · exact hi
      · exact absurd k e
    by_cases e1 : f = l.src
    · have e2 : g ≠ l.src := fun e => hne (e1.trans e.symm)
      obtain ⟨x, hx, hx'⟩ := out g (old g hg e2)
      exact ⟨.inverse x, hx, by simp [ends, hx', e1]⟩
    · by_cases e2 : g = l.src
      · rw [e2]; exact out f (old f hf e1)
      · obtain ⟨x, hx, hx'⟩ := ih f g (old f hf e1) (old g hg e2) hne
        exact ⟨x, fun m hm => List.mem_cons_of_mem _ (hx m hm), hx'⟩
  | @parent ls l hs hl hi hn ih =>
    have out : ∀ f, Known root ls f → ∃ e : Expr, (∀ m ∈ e.links, m ∈ l :: ls) ∧ ends e = some (f, l.into) := by
      intro f hf
      by_cases e : f = l.src
      · exact ⟨.inverse (.link l), by simp [Expr.links], by simp [ends, e]⟩
      · obtain ⟨x, hx, hx'⟩ := ih f l.src hf hi e
        refine ⟨.mul x (.inverse (.link l)), ?_, by simp [ends, hx']⟩
        intro m hm
        simp only [Expr.links, List.mem_append, List.mem_singleton] at hm
        rcases hm with hm | rfl
        · exact List.mem_cons_of_mem _ (hx m hm)
        · simp
    have old : ∀ f, Known root (l :: ls) f → f ≠ l.into → Known root ls f := by
      intro f hf e
      rcases (known_cons l f).mp hf with k | k | rfl
      · exact k
      · exact absurd k e
      · exact hi
    by_cases e1 : f = l.into
    · have e2 : g ≠ l.into := fun e => hne (e1.trans e.symm)
      obtain ⟨x, hx, hx'⟩ := out g (old g hg e2)
      exact ⟨.inverse x, hx, by simp [ends, hx', e1]⟩
    · by_cases e2 : g = l.into
      · rw [e2]; exact out f (old f hf e1)
      · obtain ⟨x, hx, hx'⟩ := ih f g (old f hf e1) (old g hg e2) hne
        exact ⟨x, fun m hm => List.mem_cons_of_mem _ (hx m hm), hx'⟩

theorem ends_known (root : Frame) {ls : List (Framed Pose)} {e : Expr} (he : ∀ l ∈ e.links, l ∈ ls) {i s : Frame} (h : ends e = some (i, s)) :
    Known root ls i ∧ Known root ls s := by
  induction e generalizing i s with
  | link l =>
    simp only [ends, Option.some.injEq, Prod.mk.injEq] at h
    obtain ⟨rfl, rfl⟩ := h
    exact ⟨Or.inr ⟨l, he l (by simp [Expr.links]), Or.inl rfl⟩, Or.inr ⟨l, he l (by simp [Expr.links]), Or.inr rfl⟩⟩
  | inverse e ih =>
    rcases hx : ends e with _ | ⟨i', s'⟩
    · simp [ends, hx] at h
    · simp only [ends, hx, Option.map_some, Option.some.injEq, Prod.mk.injEq] at h
      obtain ⟨rfl, rfl⟩ := h
      exact (ih he hx).symm
  | mul a b iha ihb =>
    rcases ha : ends a with _ | ⟨i1, s1⟩
    · simp [ends, ha] at h
    rcases hb : ends b with _ | ⟨i2, s2⟩
    · simp [ends, ha, hb] at h
    simp only [ends, ha, hb] at h
    split_ifs at h
    simp only [Option.some.injEq, Prod.mk.injEq] at h
    obtain ⟨rfl, rfl⟩ := h
    exact ⟨(iha (fun l hl => he l (by simp [Expr.links, hl])) ha).1, (ihb (fun l hl => he l (by simp [Expr.links, hl])) hb).2⟩

/-- What is computed from computed transforms can be computed. -/
theorem derived_trans {ls ms : List (Framed Pose)} (h : ∀ m ∈ ms, Derived ls m) {g : Framed Pose} (hg : Derived ms g) : Derived ls g := by
  obtain ⟨e, he, hv⟩ := hg
  induction e generalizing g with
  | link l =>
    cases hv
    exact h _ (he _ (by simp [Expr.links]))
  | inverse e ih =>
    rcases hx : e.eval with a | m | m
    · obtain ⟨e', h1, h2⟩ := ih he hx
      refine ⟨.inverse e', h1, ?_⟩
      rw [Expr.eval, h2]
      rw [Expr.eval, hx] at hv
      exact hv
    · simp [Expr.eval, hx] at hv
    · simp [Expr.eval, hx] at hv
  | mul a b iha ihb =>
    rcases ha : a.eval with x | m | m
    · rcases hb : b.eval with y | m | m
      · obtain ⟨a', h1, h2⟩ := iha (fun l hl => he l (by simp [Expr.links, hl])) ha
        obtain ⟨b', h3, h4⟩ := ihb (fun l hl => he l (by simp [Expr.links, hl])) hb
        refine ⟨.mul a' b', ?_, ?_⟩
        · intro l hl
          rw [Expr.links, List.mem_append] at hl
          exact hl.elim (h1 l) (h3 l)
        · rw [Expr.eval, h2, h4]
          rw [Expr.eval, ha, hb] at hv
          exact hv
      · simp [Expr.eval, ha, hb] at hv
      · simp [Expr.eval, ha, hb] at hv
    · simp [Expr.eval, ha] at hv
    · simp [Expr.eval, ha] at hv

end Verif.SceneGraph
