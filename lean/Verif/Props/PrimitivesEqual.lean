import Verif.Model.PrimitivesEqual
import Verif.Spec.PrimitivesEqual
import Verif.Props.Proto
import Verif.Props.Approx
/-! # C127: what the tests of the view compare -/
namespace Verif.Props
open Verif.Proto Verif.PrimitivesEqual Verif.Spec

theorem uuid_eq_iff (a b : Uuid) : Uuid.eq a b = true ↔ a = b := by
  cases a; cases b; simp [Uuid.eq]

theorem getSE3_other {p : Payload} (h : ¬ ∃ x, p = .se3 x) : getSE3 p = .throw "std::bad_variant_access" := by
  cases p with
  | se3 g => exact absurd ⟨g, rfl⟩ h
  | _ => rfl

/-- C127.  Primitives with different identifiers are unequal; with the same identifier and two poses the poses are compared; in all other cases there is an
exception, even if the two are one and the same. -/
theorem c127_meaning (a b : ViewPrimitive) :
    (a.id ≠ b.id → primitivesEqual a b = .ok false) ∧
    (∀ x y, SamePoses a b x y → (primitivesEqual a b = .ok true ↔ Approx.se3 x y) ∧ (primitivesEqual a b = .ok false ↔ ¬ Approx.se3 x y)) ∧
    (a.id = b.id → ¬ (ShowsPose a ∧ ShowsPose b) → primitivesEqual a b = .throw "std::bad_variant_access") := by
  refine ⟨fun h => ?_, fun x y h => ?_, fun h hn => ?_⟩
  · rw [primitivesEqual, if_pos (by rw [uuid_eq_iff]; exact h)]
  · obtain ⟨h1, h2, h3⟩ := h
    rw [primitivesEqual, if_neg (by rw [uuid_eq_iff]; exact not_not.mpr h1), h2, h3]
    simp only [getSE3, Outcome.ok_bind, Outcome.ok.injEq, decide_eq_true_eq, decide_eq_false_iff_not, and_self]
  · rw [primitivesEqual, if_neg (by rw [uuid_eq_iff]; exact not_not.mpr h)]
    by_cases ha : ShowsPose a
    · obtain ⟨x, hx⟩ := ha
      rw [hx, getSE3, Outcome.ok_bind, getSE3_other (fun hb => hn ⟨⟨x, hx⟩, hb⟩), Outcome.throw_bind]
    · rw [getSE3_other ha, Outcome.throw_bind]

/-- C127.  A primitive that shows a pose equals itself, one that shows anything else is not even comparable with itself. -/
theorem c127_self (a : ViewPrimitive) : (ShowsPose a → primitivesEqual a a = .ok true) ∧ (¬ ShowsPose a → (primitivesEqual a a).IsThrow) := by
  refine ⟨fun ⟨x, hx⟩ => ?_, fun h => ?_⟩
  · refine ((c127_meaning a a).2.1 x x ⟨rfl, hx, hx⟩).1.mpr ?_
    exact (c78_self (Framed.unframed 0) x ⟨Framed.unframed 0, 0, 0⟩ ⟨x, 0, 0⟩ ⟨Framed.unframed 0, 0, 0⟩ ⟨x, 0, 0⟩).2.1
  · exact ⟨_, (c127_meaning a a).2.2 rfl (fun h' => h h'.1)⟩

/-- C127.  The order does not matter. -/
theorem c127_symmetric (a b : ViewPrimitive) : primitivesEqual a b = primitivesEqual b a := by
  by_cases hid : a.id = b.id
  · by_cases hp : ShowsPose a ∧ ShowsPose b
    · obtain ⟨⟨x, hx⟩, y, hy⟩ := hp
      have h1 := (c127_meaning a b).2.1 x y ⟨hid, hx, hy⟩
      have h2 := (c127_meaning b a).2.1 y x ⟨hid.symm, hy, hx⟩
      by_cases h : Approx.se3 x y
      · rw [h1.1.mpr h, h2.1.mpr (c78_symmetric.2.1 x y h)]
      · rw [h1.2.mpr h, h2.2.mpr fun h' => h (c78_symmetric.2.1 y x h')]
    · rw [(c127_meaning a b).2.2 hid hp, (c127_meaning b a).2.2 hid.symm fun h => hp ⟨h.2, h.1⟩]
  · rw [(c127_meaning a b).1 hid, (c127_meaning b a).1 fun h => hid h.symm]

/-- C127.  Names and places in the source are not looked at. -/
theorem c127_blind (a b : ViewPrimitive) (n m : Option String) (f g : String) (k l : Int) :
    primitivesEqual { a with name := n, fileName := f, lineNumber := k } { b with name := m, fileName := g, lineNumber := l } = primitivesEqual a b := rfl

/-- The identity pose, as a primitive. -/
noncomputable def posePrimitive (id : Uuid) : ViewPrimitive := ⟨id, .se3 (Framed.unframed (1, 0)), none, "", 0⟩

/-- There are primitives that show poses and primitives that do not, with the same identifier or not. -/
example (id : Uuid) : SamePoses (posePrimitive id) (posePrimitive id) (Framed.unframed (1, 0)) (Framed.unframed (1, 0)) ∧ ShowsPose (posePrimitive id) ∧
    ¬ ShowsPose ⟨id, .frame Frame.null, none, "", 0⟩ := by
  refine ⟨⟨rfl, rfl, rfl⟩, ⟨_, rfl⟩, ?_⟩
  rintro ⟨x, h⟩
  cases h

/-- C127.  The test of packing and unpacking an update passes exactly if the unpacked update has two primitives, whatever they are. -/
theorem c127_round_trip_test {M : Type} (pack : List ViewPrimitive → Outcome M) (unpack : M → Outcome (List ViewPrimitive)) (p : ViewPrimitive)
    (hp : ShowsPose p) :
    testRoundTrip pack unpack p = .ok true ↔ ∃ m u, pack [p, p] = .ok m ∧ unpack m = .ok u ∧ u.length = 2 := by
  have e : compareAll p [p, p] = .ok true := by simp [compareAll, (c127_self p).1 hp]
  rw [testRoundTrip]
  cases h1 : pack [p, p] with
  | ok m =>
    cases h2 : unpack m with
    | ok u =>
      simp only [Outcome.ok_bind, h2, e]
      by_cases hl : u.length = 2
      · rw [if_neg (by simp [hl])]
        exact ⟨fun _ => ⟨m, u, rfl, h2, hl⟩, fun _ => rfl⟩
      · rw [if_pos (by simpa using fun h => hl h.symm)]
        refine ⟨fun h => by simp at h, ?_⟩
        rintro ⟨m', u', e1, e2, e3⟩
        obtain rfl : m = m' := by injection e1
        rw [h2] at e2
        obtain rfl : u = u' := by injection e2
        exact absurd e3 hl
    | throw t =>
      simp only [Outcome.ok_bind, h2, Outcome.throw_bind]
      refine ⟨fun h => (by cases h), ?_⟩
      rintro ⟨m', u', e1, e2, -⟩
      obtain rfl : m = m' := by injection e1
      rw [h2] at e2
      cases e2
    | ub t =>
      simp only [Outcome.ok_bind, h2, Outcome.ub_bind]
      refine ⟨fun h => (by cases h), ?_⟩
      rintro ⟨m', u', e1, e2, -⟩
      obtain rfl : m = m' := by injection e1
      rw [h2] at e2
      cases e2
  | throw t =>
    simp only [Outcome.throw_bind]
    refine ⟨fun h => (by cases h), ?_⟩
    rintro ⟨m', u', e1, -⟩
    cases e1
  | ub t =>
    simp only [Outcome.ub_bind]
    refine ⟨fun h => (by cases h), ?_⟩
    rintro ⟨m', u', e1, -⟩
    cases e1

/-- C127.  So it passes for a library that unpacks something else altogether, with other identifiers. -/
theorem c127_round_trip_test_blind (p : ViewPrimitive) (hp : ShowsPose p) (wrong : ViewPrimitive) :
    testRoundTrip (fun u => packUpdate u (some {})) (fun _ => .ok [wrong, wrong]) p = .ok true ↔ (packUpdate [p, p] (some {})).IsOk := by
  rw [c127_round_trip_test _ _ p hp]
  constructor
  · rintro ⟨m, -, h, -⟩; exact ⟨m, h⟩
  · rintro ⟨m, h⟩; exact ⟨m, _, h, rfl, rfl⟩

/-- C127.  The test of packing passes exactly if there are two messages and each is unpacked to a primitive with the right identifier and a pose that
agrees approximately. -/
theorem c127_pack_test {M N : Type} (pack : List ViewPrimitive → Outcome M) (primitives : M → List N) (unpackOne : N → Outcome ViewPrimitive)
    (p : ViewPrimitive) (x : Framed Pose) (hx : p.payload = .se3 x) :
    testPack pack primitives unpackOne p = .ok true ↔ ∃ m, pack [p, p] = .ok m ∧ (primitives m).length = 2 ∧
      ∀ n ∈ primitives m, ∃ q y, unpackOne n = .ok q ∧ q.id = p.id ∧ q.payload = .se3 y ∧ Approx.se3 y x := by
  have one : ∀ q : ViewPrimitive, primitivesEqual q p = .ok true ↔ ∃ y, q.id = p.id ∧ q.payload = .se3 y ∧ Approx.se3 y x := by
    intro q
    by_cases hid : q.id = p.id
    · by_cases hq : ShowsPose q
      · obtain ⟨y, hy⟩ := hq
        rw [((c127_meaning q p).2.1 y x ⟨hid, hy, hx⟩).1]
        refine ⟨fun h => ⟨y, hid, hy, h⟩, ?_⟩
        rintro ⟨y', -, h2, h3⟩
        rw [hy] at h2
        obtain rfl : y = y' := by injection h2
        exact h3
      · rw [(c127_meaning q p).2.2 hid fun h => hq h.1]
        refine ⟨fun h => (by cases h), ?_⟩
        rintro ⟨y, -, h2, -⟩
        exact absurd ⟨y, h2⟩ hq
    · rw [(c127_meaning q p).1 hid]
      refine ⟨fun h => (by simp at h), ?_⟩
      rintro ⟨y, h, -⟩
      exact absurd h hid
  have all : ∀ l : List N, comparePacked unpackOne p l = .ok true ↔
      ∀ n ∈ l, ∃ q y, unpackOne n = .ok q ∧ q.id = p.id ∧ q.payload = .se3 y ∧ Approx.se3 y x := by
    intro l
    induction l with
    | nil => simp [comparePacked]
    | cons n l ih =>
      rw [comparePacked, List.forall_mem_cons, ← ih]
      cases hu : unpackOne n with
      | ok q =>
        have o := one q
        rw [Outcome.ok_bind]
        have o' : (∃ q' y, Outcome.ok q = Outcome.ok q' ∧ q'.id = p.id ∧ q'.payload = .se3 y ∧ Approx.se3 y x) ↔ primitivesEqual q p = .ok true := by
          rw [o]
          constructor
          · rintro ⟨q', y, e, r⟩
            obtain rfl : q = q' := by injection e
            exact ⟨y, r⟩
          · rintro ⟨y, r⟩; exact ⟨q, y, rfl, r⟩
        rw [o']
        cases primitivesEqual q p with
        | ok b => cases comparePacked unpackOne p l <;> simp
        | throw t => simp
        | ub t => simp
      | throw t => simp
      | ub t => simp
  rw [testPack]
  cases h1 : pack [p, p] with
  | ok m =>
    rw [Outcome.ok_bind]
    by_cases hl : (primitives m).length = 2
    · rw [if_neg (not_not.mpr hl), all]
      constructor
      · intro h; exact ⟨m, rfl, hl, h⟩
      · rintro ⟨m', e, -, h⟩
        obtain rfl : m = m' := by injection e
        exact h
    · rw [if_pos hl]
      refine ⟨fun h => (by simp at h), ?_⟩
      rintro ⟨m', e, h, -⟩
      obtain rfl : m = m' := by injection e
      exact absurd h hl
  | throw t => simp
  | ub t => simp

example (id : Uuid) : (posePrimitive id).payload = .se3 (Framed.unframed (1, 0)) := rfl

/-- C127.  The library passes both tests, whatever the identifier, the name and the place, for every pose that its messages keep (C55). -/
theorem c127_library (p : ViewPrimitive) (hp : ShowsPose p) (h : Exact p.payload) :
    testPack (fun u => packUpdate u (some {})) UpdateMsg.primitive unpackPrimitive p = .ok true ∧
    testRoundTrip (fun u => packUpdate u (some {})) unpackUpdate p = .ok true := by
  obtain ⟨x, hx⟩ := hp
  have hr := c57_round_trip p h {}
  constructor
  · rw [c127_pack_test _ _ _ p x hx]
    cases hq : packPrimitive p (some {}) with
    | ok q =>
      rw [hq, Outcome.ok_bind] at hr
      refine ⟨⟨[q, q]⟩, ?_, rfl, ?_⟩
      · simp [packUpdate, packPrimitives, hq]
      · intro n hn
        have : n = q := by simpa using hn
        subst this
        exact ⟨_, x, hr, rfl, hx, (c78_self (Framed.unframed 0) x ⟨Framed.unframed 0, 0, 0⟩ ⟨x, 0, 0⟩ ⟨Framed.unframed 0, 0, 0⟩ ⟨x, 0, 0⟩).2.1⟩
    | throw t => rw [hq] at hr; cases hr
    | ub t => rw [hq] at hr; cases hr
  · rw [c127_round_trip_test _ _ p ⟨x, hx⟩]
    have hu := c58_round_trip [p, p] (by simpa using h) {}
    cases hq : packUpdate [p, p] (some {}) with
    | ok m =>
      rw [hq, Outcome.ok_bind] at hu
      exact ⟨m, _, rfl, hu, rfl⟩
    | throw t => rw [hq] at hu; cases hu
    | ub t => rw [hq] at hu; cases hu

/-- A pose that is kept. -/
example (id : Uuid) : ShowsPose (posePrimitive id) ∧ Exact (posePrimitive id).payload := by
  refine ⟨⟨_, rfl⟩, ?_⟩
  have h1 : IsRotation (1 : M3) := ⟨by simp, by simp⟩
  exact ⟨Iff.rfl, h1, clear_one 0⟩

end Verif.Props
