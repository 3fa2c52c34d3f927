import Verif.Model.HangleArgs
import Verif.Spec.Unicode
import Verif.Props.C01_C02
/-!
C114: the character functions called with anything. They accept exactly the strings of one character.
-/
namespace Props
open Py Hangle

/-- C114 (a): on a string of one character the functions are the Unicode classes of that character -/
theorem C114_one_character (c : Char) :
    toBase (.str [c]) = .ok c.toNat ∧
    argIsKorean (.str [c]) = .ok (decide (Spec.Korean c)) ∧
    argIsComplete (.str [c]) = .ok (decide (Spec.Syllable c)) ∧
    argIsJaum (.str [c]) = .ok (decide (Spec.Consonant c)) ∧
    argIsMoum (.str [c]) = .ok (decide (Spec.Vowel c)) ∧
    argIsNumber (.str [c]) = .ok (decide (c ∈ ['0', '1', '2', '3', '4', '5', '6', '7', '8', '9'])) ∧
    argIsEnglish (.str [c]) = .ok (decide ('a' ≤ c ∧ c ≤ 'z' ∨ 'A' ≤ c ∧ c ≤ 'Z')) ∧
    argIsPunctuation (.str [c]) = .ok (decide (c ∈ ['!', '"', '\'', ',', '.', '?', '`'])) := by
  have hch : ∀ x : Char, c = x ↔ c.toNat = x.toNat := fun x => ⟨fun h => by rw [h], fun h => Char.ext (UInt32.toNat_inj.1 h)⟩
  have hle : ∀ x y : Char, x ≤ y ↔ x.toNat ≤ y.toNat := fun x y => Iff.rfl
  refine ⟨rfl, congrArg Except.ok ?_, congrArg Except.ok ?_, congrArg Except.ok ?_, congrArg Except.ok ?_, congrArg Except.ok ?_, congrArg Except.ok ?_, congrArg Except.ok ?_⟩
  · rw [Bool.eq_iff_iff, decide_eq_true_iff]
    simp only [Spec.Korean, Spec.Syllable, Spec.Consonant, Spec.Vowel, Bool.or_eq_true, Bool.and_eq_true, decide_eq_true_eq, korBegin, korEnd, jaumBegin, jaumEnd, moumBegin, moumEnd]
    omega
  · rw [Bool.eq_iff_iff, decide_eq_true_iff]
    simp only [Spec.Syllable, Bool.and_eq_true, decide_eq_true_eq]
  · rw [Bool.eq_iff_iff, decide_eq_true_iff]
    simp only [Spec.Consonant, Bool.and_eq_true, decide_eq_true_eq]
  · rw [Bool.eq_iff_iff, decide_eq_true_iff]
    simp only [Spec.Vowel, Bool.and_eq_true, decide_eq_true_eq]
  · rw [Bool.eq_iff_iff, decide_eq_true_iff]
    simp only [Bool.and_eq_true, decide_eq_true_eq, List.mem_cons, List.not_mem_nil, or_false, hch, Char.reduceToNat, ge_iff_le]
    omega
  · rw [Bool.eq_iff_iff, decide_eq_true_iff]
    simp only [Bool.or_eq_true, Bool.and_eq_true, decide_eq_true_eq, hle, Char.reduceToNat, ge_iff_le]
  · rw [Bool.eq_iff_iff, decide_eq_true_iff]
    simp only [Bool.or_eq_true, beq_iff_eq, List.mem_cons, List.not_mem_nil, or_false, hch, Char.reduceToNat]
    omega

/-- C114 (b): on anything else — longer strings, the empty string, integers (which the type test lets through), any other object — every one of them
    raises `TypeError` -/
theorem C114_anything_else (a : Arg) (h : ∀ c, a ≠ .str [c]) :
    toBase a = .error .typeError ∧ argDecompose a = .error .typeError ∧
    argIsKorean a = .error .typeError ∧ argIsComplete a = .error .typeError ∧ argIsJaum a = .error .typeError ∧ argIsMoum a = .error .typeError ∧
    argIsNumber a = .error .typeError ∧ argIsEnglish a = .error .typeError ∧ argIsPunctuation a = .error .typeError := by
  have h0 : toBase a = .error .typeError := by
    cases a with
    | str s =>
      cases s with
      | nil => rfl
      | cons c s =>
        cases s with
        | nil => exact absurd rfl (h c)
        | cons d s => rfl
    | int n => rfl
    | other => rfl
  have h1 : argIsKorean a = .error .typeError := by unfold argIsKorean; rw [h0]; rfl
  refine ⟨h0, by unfold argDecompose; rw [h1], h1, ?_, ?_, ?_, ?_, ?_, ?_⟩
  · unfold argIsComplete; rw [h0]; rfl
  · unfold argIsJaum; rw [h0]; rfl
  · unfold argIsMoum; rw [h0]; rfl
  · unfold argIsNumber; rw [h0]; rfl
  · unfold argIsEnglish; rw [h0]; rfl
  · unfold argIsPunctuation; rw [h0]; rfl

/-- three characters as three strings -/
def strings (t : Char × Char × Char) : Arg × Arg × Arg := (.str [t.1], .str [t.2.1], .str [t.2.2])

/-- C114: `decompose` of a string of one character answers what it answers for the character (C02), as strings -/
theorem C114_decompose (c : Char) : argDecompose (.str [c]) = (decompose c).map (Option.map strings) := by
  unfold argDecompose decompose
  have hk : argIsKorean (.str [c]) = .ok (isKorean c) := rfl
  rw [hk]
  cases isKorean c with
  | false => rfl
  | true =>
    have hb : toBase (.str [c]) = .ok c.toNat := rfl
    simp only [hb]
    show (if _ then _ else _) = Except.map _ (if _ then _ else _)
    by_cases h1 : (jaumBegin ≤ c.toNat && c.toNat ≤ jaumEnd) = true
    · rw [if_pos h1, if_pos h1]; rfl
    · rw [if_neg h1, if_neg h1]
      by_cases h2 : (moumBegin ≤ c.toNat && c.toNat ≤ moumEnd) = true
      · rw [if_pos h2, if_pos h2]; rfl
      · rw [if_neg h2, if_neg h2]
        have hg : ∀ {α : Type} (l : List α) (i : Nat), (∃ x, getItem l i = .ok x) ∨ getItem l i = .error .indexError := by
          intro α l i
          unfold getItem
          cases l[i]? with
          | none => exact .inr rfl
          | some x => exact .inl ⟨x, rfl⟩
        rcases hg chosungList ((c.toNat - korBegin) / chosungBase) with ⟨x, hx⟩ | hx <;>
        rcases hg jungsungList ((c.toNat - korBegin - (c.toNat - korBegin) / chosungBase * chosungBase) / jungsungBase) with ⟨y, hy⟩ | hy <;>
        rcases hg jongsungList (c.toNat - korBegin - (c.toNat - korBegin) / chosungBase * chosungBase -
            (c.toNat - korBegin - (c.toNat - korBegin) / chosungBase * chosungBase) / jungsungBase * jungsungBase) with ⟨z, hz⟩ | hz <;>
        rw [hx, hy, hz] <;> rfl

private theorem index_char (l : List Char) (a : Arg) :
    (∀ c, a = .str [c] → argIndex l a = index l c) ∧ ((∀ c, a ≠ .str [c]) → argIndex l a = .error .valueError) := by
  constructor
  · rintro c rfl
    unfold argIndex index
    rw [List.findIdx?_map]
    have : ((fun x => decide (x = Arg.str [c])) ∘ fun c => Arg.str [c]) = (fun x : Char => decide (x = c)) := by
      funext x
      refine (@decide_eq_decide _ _ _ _).2 ⟨fun h => ?_, fun h => by rw [h]⟩
      cases h; rfl
    rw [this]
  · intro h
    unfold argIndex index
    have : (l.map (fun c => Arg.str [c])).findIdx? (fun x => decide (x = a)) = none := by
      rw [List.findIdx?_eq_none_iff]
      intro x hx
      obtain ⟨c, -, rfl⟩ := List.mem_map.1 hx
      exact decide_eq_false (fun e => h c e.symm)
    rw [this]

private theorem compose_char (a b d : Char) : argCompose (.str [a]) (.str [b]) (.str [d]) = compose a b d := by
  unfold argCompose compose
  rw [(index_char _ _).1 a rfl, (index_char _ _).1 b rfl, (index_char _ _).1 d rfl]
  cases index chosungList a with
  | error e => rfl
  | ok i =>
    cases index jungsungList b with
    | error e => rfl
    | ok j =>
      cases index jongsungList d with
      | error e => rfl
      | ok k => rfl

/-- C114 (c): `compose` on any three objects: it succeeds iff they are the one-character strings of the i-th initial, the j-th vowel and the k-th final
    (or blank), and then gives that syllable; otherwise `ValueError` -/
theorem C114_compose (x y z : Arg) :
    (∀ a b d i j k, x = .str [a] → y = .str [b] → z = .str [d] → Spec.JamoAt a b d i j k →
      ∃ c, argCompose x y z = .ok c ∧ c.toNat = 0xAC00 + (i * 21 + j) * 28 + k) ∧
    ((¬ ∃ a b d i j k, x = .str [a] ∧ y = .str [b] ∧ z = .str [d] ∧ Spec.JamoAt a b d i j k) → argCompose x y z = .error .valueError) := by
  constructor
  · rintro a b d i j k rfl rfl rfl h
    obtain ⟨c, h1, -, h2, -⟩ := C01_decompose_compose a b d i j k h
    exact ⟨c, by rw [compose_char]; exact h1, h2⟩
  · intro hn
    have hidx : ∀ (l : List Char) (c : Arg), (∃ i, argIndex l c = .ok i) ∨ argIndex l c = .error .valueError := by
      intro l c
      unfold argIndex index
      cases (l.map (fun c => Arg.str [c])).findIdx? (fun x => decide (x = c)) with
      | none => exact .inr rfl
      | some i => exact .inl ⟨i, rfl⟩
    by_cases hx : ∃ a, x = .str [a]
    · obtain ⟨a, rfl⟩ := hx
      by_cases hy : ∃ b, y = .str [b]
      · obtain ⟨b, rfl⟩ := hy
        by_cases hz : ∃ d, z = .str [d]
        · obtain ⟨d, rfl⟩ := hz
          rw [compose_char]
          exact C01_compose_rejects a b d (fun ⟨i, j, k, h⟩ => hn ⟨a, b, d, i, j, k, rfl, rfl, rfl, h⟩)
        · unfold argCompose
          rw [(index_char _ z).2 (fun c h => hz ⟨c, h⟩)]
          rcases hidx chosungList (.str [a]) with ⟨i, hi⟩ | hi <;> rcases hidx jungsungList (.str [b]) with ⟨j, hj⟩ | hj <;> rw [hi, hj]
      · unfold argCompose
        rw [(index_char _ y).2 (fun c h => hy ⟨c, h⟩)]
        rcases hidx chosungList (.str [a]) with ⟨i, hi⟩ | hi <;> rw [hi]
    · unfold argCompose
      rw [(index_char _ x).2 (fun c h => hx ⟨c, h⟩)]

/-- C114 (d): whatever is given to `decompose`: if it answers a triple, then the argument was a Korean character; for a syllable the triple composes back to
    it, for a single consonant or vowel `compose` rejects the triple -/
theorem C114_round_trip (a x y z : Arg) (h : argDecompose a = .ok (some (x, y, z))) :
    ∃ c, a = .str [c] ∧ Spec.Korean c ∧ (Spec.Syllable c → argCompose x y z = .ok c) ∧ (¬ Spec.Syllable c → argCompose x y z = .error .valueError) := by
  by_cases ha : ∃ c, a = .str [c]
  · obtain ⟨c, rfl⟩ := ha
    refine ⟨c, rfl, ?_⟩
    rw [C114_decompose] at h
    by_cases hs : Spec.Syllable c
    · refine ⟨.inl hs, fun _ => ?_, fun hn => absurd hs hn⟩
      obtain ⟨p, q, r, h1, h2⟩ := C01_compose_decompose c hs
      rw [h1] at h
      cases h
      rw [compose_char, h2]
    · have hc := C02_decompose_cases c
      have hk : Spec.Korean c := by
        by_cases hk : Spec.Korean c
        · exact hk
        · rw [hc.1.2 hk] at h; cases h
      refine ⟨hk, fun h => absurd h hs, fun _ => ?_⟩
      rcases hk with hk | hk | hk
      · exact absurd hk hs
      · rw [hc.2.1 hk] at h
        cases h
        rw [compose_char]
        refine C01_compose_rejects _ _ _ (fun ⟨i, j, k, _, h2, _⟩ => ?_)
        have : (32 : Nat) ∈ Spec.vowelJamo := List.mem_of_getElem? h2
        revert this; decide
      · rw [hc.2.2.1 hk] at h
        cases h
        rw [compose_char]
        refine C01_compose_rejects _ _ _ (fun ⟨i, j, k, h1, _, _⟩ => ?_)
        have : (32 : Nat) ∈ Spec.initialJamo := List.mem_of_getElem? h1
        revert this; decide
  · have := (C114_anything_else a (fun c hc => ha ⟨c, hc⟩)).2.1
    rw [this] at h
    cases h

/-- C114 (e): `Lemmatizer.candidates` raises `AttributeError` for every word but the empty one -/
theorem C114_candidates (z : Lemma.Lemmatizer) (word : Str) :
    Lemma.candidatesOf z word = if word = [] then .ok [] else .error .attributeError := by
  cases word with
  | nil => rfl
  | cons c w =>
    rw [if_neg (List.cons_ne_nil c w)]
    unfold Lemma.candidatesOf
    rw [List.length_cons, List.range'_succ, List.mapM_cons]
    rfl

example : (∀ c, Arg.int 48 ≠ .str [c]) ∧ (∀ c, Arg.str "가나".toList ≠ .str [c]) ∧ argIsNumber (.int 48) = .error .typeError ∧ argIsNumber (.str ['4']) = .ok true ∧
    argDecompose (.str ['감']) = .ok (some (.str ['ㄱ'], .str ['ㅏ'], .str ['ㅁ'])) ∧ argCompose (.str ['ㄱ']) (.str ['ㅏ']) (.str []) = .error .valueError ∧
    argDecompose (.str ['ㅋ']) = .ok (some (.str ['ㅋ'], .str [' '], .str [' '])) := by
  refine ⟨(fun c h => by (cases h)), (fun c h => by (cases h)), by decide, by decide, by decide +kernel, by decide +kernel, by decide +kernel⟩

end Props
