import Verif.Proofs.Uuid
import Mathlib.Data.List.TakeWhile
/-! # Properties C17 and C18: UUID text -/
namespace Verif.Props
open Verif.Spec.Uuid (Canonical lower)

/-- C17.  Parsing the printed form of any identifier gives it back. -/
theorem c17_print_parse (u : Uuid) : Uuid.ofStr u.toStr = .ok u := by
  unfold Uuid.ofStr
  rw [Uuid.uuidParse_toStr]
  simp [u.len]

/-- C17.  A string without NUL that parses prints back as its lower-case form. -/
theorem c17_parse_print (s : List Char) (hn : '\x00' ∉ s) (u : Uuid) (h : Uuid.ofStr s = .ok u) : u.toStr = lower s := by
  have hc : Uuid.cStr s = s := by
    unfold Uuid.cStr
    rw [List.takeWhile_eq_self_iff]
    intro c hc
    simp only [bne_iff_ne, ne_eq]
    rintro rfl
    exact hn hc
  unfold Uuid.ofStr Uuid.uuidParse at h
  rw [hc] at h
  split at h
  · cases h
  · rename_i bs e
    by_cases hl : s.length = 36
    · rw [if_pos hl] at e
      split_ifs at h with h1
      cases hd : Uuid.digitsFrom 0 s with
      | none => rw [hd] at e; simp at e
      | some ds =>
        rw [hd] at e
        simp only [Option.map_some, Option.some.injEq] at e
        simp only [Outcome.ok.injEq] at h
        rw [← h]
        unfold Uuid.toStr
        simp only
        rw [← e]
        exact (Uuid.digitsFrom_print s hl ds hd).2
    · rw [if_neg hl] at e
      cases e

/-- C17.  Equality of identifiers, of strings and of packed messages coincide, equal identifiers hash alike whatever the string
hash, and the comparison operator is that equality. -/
theorem c17_equalities (a b : Uuid) (old : Uuid.Msg) :
    (a.toStr = b.toStr ↔ a = b) ∧ (Uuid.pack a (some old) = Uuid.pack b (some old) ↔ a = b) ∧
    (Uuid.eq a b = true ↔ a = b) ∧ (a = b → ∀ h, Uuid.hash h a = Uuid.hash h b) := by
  have inj : a.toStr = b.toStr ↔ a = b := by
    constructor
    · intro h
      have h1 := c17_print_parse a
      rw [h, c17_print_parse b] at h1
      simpa using h1.symm
    · rintro rfl; rfl
  refine ⟨inj, ?_, ?_, ?_⟩
  · simp [Uuid.pack, Outcome.reassert, inj]
  · obtain ⟨x, hx⟩ := a
    obtain ⟨y, hy⟩ := b
    simp [Uuid.eq]
  · rintro rfl h; rfl

/-- C17.  Packing and unpacking gives the identifier back, whatever the message held before; the message holds the printed identifier. -/
theorem c17_pack_unpack (u : Uuid) (old : Uuid.Msg) :
    (Uuid.pack u (some old) >>= Uuid.unpack) = .ok u ∧ ∃ m, Uuid.pack u (some old) = .ok m ∧ m.data = u.toStr := by
  refine ⟨?_, ⟨u.toStr⟩, by simp [Uuid.pack, Outcome.reassert], rfl⟩
  simp [Uuid.pack, Outcome.reassert, Uuid.unpack, c17_print_parse]

/-- C17.  A UUID is null exactly if all digits of its printed form are zero. -/
theorem c17_null (u : Uuid) : u.isNull = true ↔ u.toStr = "00000000-0000-0000-0000-000000000000".toList := by
  have e : Uuid.null.toStr = "00000000-0000-0000-0000-000000000000".toList := by decide
  rw [← e, (c17_equalities u Uuid.null {}).1, Uuid.isNull, decide_eq_true_iff]
  constructor
  · intro h
    cases u; cases h; rfl
  · rintro rfl; rfl

/-- C17.  The printed form is canonical and in lower case. -/
theorem c17_printed_canonical (u : Uuid) : Canonical u.toStr ∧ lower u.toStr = u.toStr := by
  have hlen : u.toStr.length = 36 := by
    obtain ⟨bs, hl⟩ := u
    match bs, hl with
    | [b0, b1, b2, b3, b4, b5, b6, b7, b8, b9, b10, b11, b12, b13, b14, b15], _ => simp [Uuid.toStr, Uuid.unparseFrom]
  have hp := Uuid.uuidParse_toStr u
  have hnn : Uuid.cStr u.toStr = u.toStr := by
    obtain ⟨bs, hl⟩ := u
    match bs, hl with
    | [b0, b1, b2, b3, b4, b5, b6, b7, b8, b9, b10, b11, b12, b13, b14, b15], _ =>
      simp [Uuid.toStr, Uuid.unparseFrom, Uuid.cStr, Uuid.hexDigit_ne_nul]
  have hcan : Canonical u.toStr := by
    rw [Uuid.canonical_iff]
    refine ⟨hlen, ?_⟩
    unfold Uuid.uuidParse at hp
    simp only [hnn, hlen, if_true] at hp
    cases hd : Uuid.digitsFrom 0 u.toStr with
    | none => rw [hd] at hp; simp at hp
    | some ds => exact ⟨ds, rfl⟩
  refine ⟨hcan, ?_⟩
  have hn : '\x00' ∉ u.toStr := by
    intro hm
    have : ∀ l : List Char, '\x00' ∈ l → Uuid.cStr l ≠ l := by
      intro l hl he
      unfold Uuid.cStr at he
      rw [List.takeWhile_eq_self_iff] at he
      have := he _ hl
      simp at this
    exact this _ hm hnn
  exact (c17_parse_print _ hn u (c17_print_parse u)).symm

example : (Uuid.toStr ⟨[0x12, 0x34, 0xab, 0xCD, 0, 1, 2, 3, 4, 5, 6, 7, 8, 9, 0xfe, 0xff], rfl⟩) =
    "1234abcd-0001-0203-0405-06070809feff".toList := by rfl
example : '\x00' ∉ "1234ABCD-0001-0203-0405-06070809feff".toList := by decide
example : Uuid.ofStr "1234ABCD-0001-0203-0405-06070809feff".toList =
    .ok ⟨[0x12, 0x34, 0xab, 0xCD, 0, 1, 2, 3, 4, 5, 6, 7, 8, 9, 0xfe, 0xff], rfl⟩ := by rfl

/-- C18 (exact account).  A string is accepted exactly if its part before the first NUL is canonical; otherwise the constructor throws. -/
theorem c18_accepts_prefix (s : List Char) :
    (∃ u, Uuid.ofStr s = .ok u ∧ Canonical (s.takeWhile (fun c => c != '\x00'))) ∨
    (Uuid.ofStr s = .throw "Invalid UUID string!" ∧ ¬ Canonical (s.takeWhile (fun c => c != '\x00'))) := by
  rw [Uuid.canonical_iff]
  change (∃ u, Uuid.ofStr s = .ok u ∧ (Uuid.cStr s).length = 36 ∧ _) ∨ (_ ∧ ¬ ((Uuid.cStr s).length = 36 ∧ _))
  unfold Uuid.ofStr Uuid.uuidParse
  by_cases hl : (Uuid.cStr s).length = 36
  · simp only [hl, if_true]
    cases hd : Uuid.digitsFrom 0 (Uuid.cStr s) with
    | none =>
      right
      refine ⟨rfl, ?_⟩
      rintro ⟨-, ds, h⟩
      unfold Uuid.cStr at hd
      rw [hd] at h
      cases h
    | some ds =>
      left
      have h16 := (Uuid.digitsFrom_print _ hl ds hd).1
      exact ⟨⟨_, h16⟩, by simp [h16], trivial, ds, hd⟩
  · right
    simp [hl]

/-- C18, full statement for strings without NUL.  Missing: strings with an embedded NUL, for which the statement is false, see
`c18_embedded_nul_accepted`. -/
theorem c18_accepts_iff_canonical_partial (s : List Char) (hn : '\x00' ∉ s) :
    ((∃ u, Uuid.ofStr s = .ok u) ↔ Canonical s) ∧ (¬ Canonical s → Uuid.ofStr s = .throw "Invalid UUID string!") := by
  have hc : s.takeWhile (fun c => c != '\x00') = s := by
    rw [List.takeWhile_eq_self_iff]
    intro c hc
    simp only [bne_iff_ne, ne_eq]
    rintro rfl
    exact hn hc
  have h := c18_accepts_prefix s
  rw [hc] at h
  rcases h with ⟨u, h1, h2⟩ | ⟨h1, h2⟩
  · exact ⟨⟨fun _ => h2, fun _ => ⟨u, h1⟩⟩, fun h => absurd h2 h⟩
  · refine ⟨⟨?_, fun h => absurd h h2⟩, fun _ => h1⟩
    rintro ⟨u, h3⟩
    rw [h1] at h3
    cases h3

/-- C18 fails as stated: a string whose tail after a NUL byte is garbage is accepted. -/
theorem c18_embedded_nul_accepted :
    ∃ s : List Char, ¬ Canonical s ∧ Uuid.ofStr s = .ok Uuid.null := by
  refine ⟨"00000000-0000-0000-0000-000000000000".toList ++ ['\x00', 'x'], ?_, by rfl⟩
  intro h
  have := h.length
  simp at this

example : Canonical "00000000-0000-0000-0000-00000000000F".toList := by
  rw [Uuid.canonical_iff]; exact ⟨rfl, _, rfl⟩
example : Uuid.ofStr [] = .throw "Invalid UUID string!" := by rfl
example : Uuid.ofStr "00000000-0000-0000-0000-00000000000g".toList = .throw "Invalid UUID string!" := by rfl

end Verif.Props
