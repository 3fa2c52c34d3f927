import Verif.Model.NounPost
import Verif.Data.FrequentJosas
import Verif.Data.NounSuffixes
/-! C47: noun post-processing only removes words, and for the stated reasons. -/
namespace Props
open Py Nested NounPost

/-- `word = l + r` with a noun `l` of at least two characters and a feature `r` of at least two characters -/
def NounPlusFeature {V : Type} (nouns : Dict Str V) (features : List Str) (word : Str) : Prop :=
  ∃ l r, word = l ++ r ∧ 2 ≤ l.length ∧ 2 ≤ r.length ∧ l ∈ nouns.map (·.1) ∧ r ∈ features

/-- `word = l + r` where `r` is one of the shipped josa but not one of the shipped noun suffixes, and `l` (two characters
    or more) is a noun of the table whose first component is strictly larger than the word's -/
def NounPlusJosa (nouns : Dict Str (Rat × Rat)) (word l r : Str) : Prop :=
  word = l ++ r ∧ 2 ≤ l.length ∧ r ≠ [] ∧ r ∈ josaset ∧ r ∉ suffixset ∧
    ∃ s sw, (l, s) ∈ nouns ∧ (word, sw) ∈ nouns ∧ sw.1 < s.1

/-- C47: the particles and the noun suffixes the post-processing knows are those of the two files shipped with the package. -/
theorem C47_tables : josaset = Data.frequentJosas ∧ suffixset = Data.nounSuffixes := by
  constructor <;> decide +kernel

private theorem mem_cutPositions {w : Str} {e : Nat} : e ∈ cutPositions w ↔ 2 ≤ e ∧ e < w.length := by
  unfold cutPositions
  simp only [List.mem_map, List.mem_range]
  constructor
  · rintro ⟨a, h, rfl⟩; omega
  · rintro ⟨h1, h2⟩; exact ⟨e - 2, by omega, by omega⟩

private theorem detachHit_iff {V : Type} {nouns : Dict Str V} {features : List Str} {word : Str} :
    detachHit nouns features word = true ↔ NounPlusFeature nouns features word := by
  unfold detachHit NounPlusFeature
  constructor
  · intro h
    split at h
    · cases h
    · obtain ⟨e, he, h⟩ := List.any_eq_true.1 h
      split at h
      · cases h
      · rw [Bool.and_eq_true, Dict.isSome_get?_iff] at h
        obtain ⟨h1, h2⟩ := mem_cutPositions.1 he
        refine ⟨word.take e, word.drop e, (List.take_append_drop _ _).symm, ?_, by omega, h.1, by simpa using h.2⟩
        rw [List.length_take]; omega
  · rintro ⟨l, r, rfl, hl, hr, h1, h2⟩
    rw [if_neg (by simp; omega)]
    refine List.any_eq_true.2 ⟨l.length, mem_cutPositions.2 ⟨hl, by simp; omega⟩, ?_⟩
    rw [List.drop_left, List.take_left, if_neg (by omega), Bool.and_eq_true, Dict.isSome_get?_iff]
    exact ⟨h1, by simpa using h2⟩

private theorem mem_selectTrueNouns {V : Type} {nouns : Dict Str V} {removals : List Str} {e : Str × V} :
    e ∈ selectTrueNouns nouns removals ↔ e ∈ nouns ∧ e.1 ∉ removals := by
  simp [selectTrueNouns]

/-- C47: `detaching_features` returns the table without exactly the words that are a noun plus a feature (both of at least
    two characters; the noun is looked up in the table as given, so a removed word still detaches others), in the same
    order with the same scores; the second result is the set of the removed words. -/
theorem C47_detaching {V : Type} (nouns : Dict Str V) (features : List Str) :
    (detachingFeatures nouns features).1.Sublist nouns ∧
    (∀ w s, (w, s) ∈ (detachingFeatures nouns features).1 ↔ (w, s) ∈ nouns ∧ ¬ NounPlusFeature nouns features w) ∧
    (∀ w, w ∈ (detachingFeatures nouns features).2 ↔ w ∈ nouns.map (·.1) ∧ NounPlusFeature nouns features w) := by
  refine ⟨List.filter_sublist, ?_, ?_⟩
  · intro w s
    show (w, s) ∈ selectTrueNouns _ _ ↔ _
    rw [mem_selectTrueNouns, List.mem_filter, detachHit_iff]
    constructor
    · rintro ⟨h1, h2⟩; exact ⟨h1, fun h => h2 ⟨List.mem_map.2 ⟨_, h1, rfl⟩, h⟩⟩
    · rintro ⟨h1, h2⟩; exact ⟨h1, fun h => h2 h.2⟩
  · intro w
    show w ∈ (Dict.keys nouns).filter _ ↔ _
    rw [List.mem_filter, detachHit_iff]

/-- C47: `ignore_features` returns the table without exactly the words that are features themselves. -/
theorem C47_ignoring {V : Type} (nouns : Dict Str V) (features : List Str) :
    (ignoreFeatures nouns features).1.Sublist nouns ∧
    (∀ w s, (w, s) ∈ (ignoreFeatures nouns features).1 ↔ (w, s) ∈ nouns ∧ w ∉ features) ∧
    (∀ w, w ∈ (ignoreFeatures nouns features).2 ↔ w ∈ nouns.map (·.1) ∧ w ∈ features) := by
  refine ⟨List.filter_sublist, ?_, ?_⟩
  · intro w s
    show (w, s) ∈ selectTrueNouns _ _ ↔ _
    rw [mem_selectTrueNouns, List.mem_filter]
    constructor
    · rintro ⟨h1, h2⟩
      exact ⟨h1, fun h => h2 ⟨List.mem_map.2 ⟨_, h1, rfl⟩, by simpa using h⟩⟩
    · rintro ⟨h1, h2⟩; exact ⟨h1, fun h => h2 (by simpa using h.2)⟩
  · intro w
    show w ∈ (Dict.keys nouns).filter _ ↔ _
    rw [List.mem_filter]; simp

private theorem njCandidate_iff {nouns : Dict Str (Rat × Rat)} (hw : nouns.WF) {word : Str} {score : Rat × Rat}
    (hm : (word, score) ∈ nouns) {i : Nat} (hi : 2 ≤ i ∧ i < word.length) :
    njCandidate nouns word score i = true ↔ NounPlusJosa nouns word (word.take i) (word.drop i) := by
  unfold njCandidate NounPlusJosa
  have hlen : 2 ≤ (word.take i).length := by rw [List.length_take]; omega
  have hne : word.drop i ≠ [] := by
    intro h; have := congrArg List.length h; rw [List.length_drop, List.length_nil] at this; omega
  rw [Bool.and_eq_true, Bool.and_eq_true]
  constructor
  · rintro ⟨⟨h1, h2⟩, h3⟩
    cases hg : Dict.get? nouns (word.take i) with
    | none => rw [hg] at h3; cases h3
    | some s =>
      rw [hg] at h3
      refine ⟨(List.take_append_drop _ _).symm, hlen, hne, by simpa using h1, by simpa using h2, s, score, Dict.mem_of_get? hg, hm, ?_⟩
      exact Rat.not_le.1 (by simpa using h3)
  · rintro ⟨_, _, _, h1, h2, s, sw, hs, hsw, hlt⟩
    rw [Dict.get?_of_mem hw hs]
    have : sw = score := by
      have a := Dict.get?_of_mem hw hsw
      rw [Dict.get?_of_mem hw hm] at a
      exact (Option.some.inj a).symm
    subst this
    exact ⟨⟨by simpa using h1, by simpa using h2⟩, by simpa using Rat.not_le.2 hlt⟩

private theorem njCuts_some (nouns : Dict Str (Rat × Rat)) (g : Nested Str) (mj : Int) (word : Str) (score : Rat × Rat) (is : List Nat) :
    njCuts nouns (some g) mj word score is =
      .ok (is.any (fun i => njCandidate nouns word score i && decide ((josaCount g (word.take i) : Int) ≥ mj))) := by
  induction is with
  | nil => rfl
  | cons i is ih =>
    unfold njCuts
    rw [ih]
    unfold njCut
    rw [List.any_cons]
    cases njCandidate nouns word score i <;> rfl

private theorem njCuts_none (nouns : Dict Str (Rat × Rat)) (mj : Int) (word : Str) (score : Rat × Rat) (is : List Nat) :
    njCuts nouns none mj word score is =
      if is.any (fun i => njCandidate nouns word score i) then .error .attributeError else .ok false := by
  induction is with
  | nil => rfl
  | cons i is ih =>
    unfold njCuts
    rw [ih]
    unfold njCut
    cases h : njCandidate nouns word score i
    · simp only [List.any_cons, h, Bool.false_or]
      cases h2 : is.any (fun i => njCandidate nouns word score i) <;> rfl
    · simp only [List.any_cons, h, Bool.true_or]; rfl

private def hitSome (nouns : Dict Str (Rat × Rat)) (g : Nested Str) (mj : Int) (e : Str × (Rat × Rat)) : Bool :=
  if e.1.length ≤ 2 then false else
    (cutPositions e.1).any (fun i => njCandidate nouns e.1 e.2 i && decide ((josaCount g (e.1.take i) : Int) ≥ mj))

private theorem njRemovals_some (nouns : Dict Str (Rat × Rat)) (g : Nested Str) (mj : Int) (es : List (Str × (Rat × Rat))) :
    njRemovals nouns (some g) mj es = .ok ((es.filter (hitSome nouns g mj)).map (·.1)) := by
  induction es with
  | nil => rfl
  | cons e es ih =>
    unfold njRemovals
    rw [ih, List.filter_cons, njCuts_some]
    unfold hitSome
    by_cases h : e.1.length ≤ 2
    · rw [if_pos h, if_pos h]; rfl
    · rw [if_neg h, if_neg h]
      cases (cutPositions e.1).any (fun i => njCandidate nouns e.1 e.2 i && decide ((josaCount g (e.1.take i) : Int) ≥ mj)) <;> rfl

private def hitNone (nouns : Dict Str (Rat × Rat)) (e : Str × (Rat × Rat)) : Bool :=
  if e.1.length ≤ 2 then false else (cutPositions e.1).any (fun i => njCandidate nouns e.1 e.2 i)

private theorem njRemovals_none (nouns : Dict Str (Rat × Rat)) (mj : Int) (es : List (Str × (Rat × Rat))) :
    njRemovals nouns none mj es = if es.any (hitNone nouns) then .error .attributeError else .ok [] := by
  induction es with
  | nil => rfl
  | cons e es ih =>
    unfold njRemovals
    rw [ih, List.any_cons, njCuts_none]
    generalize es.any (hitNone nouns) = B
    unfold hitNone
    by_cases h : e.1.length ≤ 2
    · rw [if_pos h, if_pos h, Bool.false_or]
      cases B <;> rfl
    · rw [if_neg h, if_neg h]
      cases (cutPositions e.1).any (fun i => njCandidate nouns e.1 e.2 i)
      · cases B <;> rfl
      · rfl

private theorem exists_cut {nouns : Dict Str (Rat × Rat)} (hw : nouns.WF) {word : Str} {score : Rat × Rat}
    (hm : (word, score) ∈ nouns) (P : Str → Prop) :
    (¬ word.length ≤ 2 ∧ ∃ i ∈ cutPositions word, njCandidate nouns word score i = true ∧ P (word.take i)) ↔
      ∃ l r, NounPlusJosa nouns word l r ∧ P l := by
  constructor
  · rintro ⟨_, i, hi, h, hp⟩
    exact ⟨_, _, (njCandidate_iff hw hm (mem_cutPositions.1 hi)).1 h, hp⟩
  · rintro ⟨l, r, h, hp⟩
    have hh := h
    obtain ⟨e, hl, hr, _⟩ := h
    have hr' := List.length_pos_iff.2 hr
    have hlen : word.length = l.length + r.length := by rw [e, List.length_append]
    have hi : 2 ≤ l.length ∧ l.length < word.length := ⟨hl, by omega⟩
    have e1 : word.take l.length = l := by rw [e, List.take_left]
    have e2 : word.drop l.length = r := by rw [e, List.drop_left]
    refine ⟨by omega, l.length, mem_cutPositions.2 hi, (njCandidate_iff hw hm hi).2 ?_, by rw [e1]; exact hp⟩
    rw [e1, e2]; exact hh

/-- C47: on a graph that was not frozen, `check_N_is_NJ` raises nothing and removes exactly the words that are a more
    frequent noun (first component) plus a josa, the noun having at least `min_num_of_josa` josa among its right parts
    in the graph as constructed. -/
theorem C47_nj (nouns : Dict Str (Rat × Rat)) (hw : nouns.WF) (g : Nested Str) (mj : Int) :
    ∃ kept removed, checkNIsNJ nouns (some g) mj = .ok (kept, removed) ∧ kept.Sublist nouns ∧
      (∀ w s, (w, s) ∈ kept ↔ (w, s) ∈ nouns ∧
        ¬ ∃ l r, NounPlusJosa nouns w l r ∧ mj ≤ (((row g l).filter (fun e => josaset.contains e.1)).length : Int)) ∧
      (∀ w, w ∈ removed ↔ ∃ l r, NounPlusJosa nouns w l r ∧ mj ≤ (((row g l).filter (fun e => josaset.contains e.1)).length : Int)) := by
  have hjc : ∀ l, (josaCount g l : Int) = (((row g l).filter (fun e => josaset.contains e.1)).length : Int) := by
    intro l
    unfold josaCount Dict.keys
    rw [List.filter_map, List.length_map]; rfl
  have hhit : ∀ w s, (w, s) ∈ nouns → (hitSome nouns g mj (w, s) = true ↔
      ∃ l r, NounPlusJosa nouns w l r ∧ mj ≤ (((row g l).filter (fun e => josaset.contains e.1)).length : Int)) := by
    intro w s hm
    rw [← exists_cut hw hm (fun l => mj ≤ (((row g l).filter (fun e => josaset.contains e.1)).length : Int))]
    unfold hitSome
    by_cases h : w.length ≤ 2
    · rw [if_pos h]; simp [h]
    · rw [if_neg h]
      constructor
      · intro ha
        obtain ⟨i, hi, hb⟩ := List.any_eq_true.1 ha
        rw [Bool.and_eq_true, decide_eq_true_eq, hjc] at hb
        exact ⟨h, i, hi, hb.1, hb.2⟩
      · rintro ⟨_, i, hi, h1, h2⟩
        refine List.any_eq_true.2 ⟨i, hi, ?_⟩
        rw [Bool.and_eq_true, decide_eq_true_eq, hjc]
        exact ⟨h1, h2⟩
  have hrem : ∀ w, w ∈ (nouns.filter (hitSome nouns g mj)).map (·.1) ↔
      ∃ l r, NounPlusJosa nouns w l r ∧ mj ≤ (((row g l).filter (fun e => josaset.contains e.1)).length : Int) := by
    intro w
    constructor
    · intro h
      obtain ⟨⟨w', s⟩, hm, rfl⟩ := List.mem_map.1 h
      obtain ⟨hm, hh⟩ := List.mem_filter.1 hm
      exact (hhit _ _ hm).1 hh
    · rintro ⟨l, r, h, hp⟩
      obtain ⟨_, _, _, _, _, s, sw, _, hsw, _⟩ := id h
      exact List.mem_map.2 ⟨(w, sw), List.mem_filter.2 ⟨hsw, (hhit _ _ hsw).2 ⟨l, r, h, hp⟩⟩, rfl⟩
  refine ⟨selectTrueNouns nouns ((nouns.filter (hitSome nouns g mj)).map (·.1)), (nouns.filter (hitSome nouns g mj)).map (·.1), ?_, ?_, ?_, hrem⟩
  · unfold checkNIsNJ; rw [njRemovals_some]; rfl
  · exact List.filter_sublist
  · intro w s
    rw [mem_selectTrueNouns, hrem]

/-- C47: on a frozen graph `check_N_is_NJ` raises AttributeError exactly when some word of the table is a more frequent
    noun plus a josa; otherwise it returns the table unchanged. -/
theorem C47_nj_frozen (nouns : Dict Str (Rat × Rat)) (hw : nouns.WF) (mj : Int) :
    ((∃ w l r, NounPlusJosa nouns w l r) → checkNIsNJ nouns none mj = .error .attributeError) ∧
    ((¬ ∃ w l r, NounPlusJosa nouns w l r) → checkNIsNJ nouns none mj = .ok (nouns, [])) := by
  have key : (nouns.any (hitNone nouns) = true) ↔ ∃ w l r, NounPlusJosa nouns w l r := by
    have hhit : ∀ w s, (w, s) ∈ nouns → (hitNone nouns (w, s) = true ↔ ∃ l r, NounPlusJosa nouns w l r ∧ True) := by
      intro w s hm
      rw [← exists_cut hw hm (fun _ => True)]
      unfold hitNone
      by_cases h : w.length ≤ 2
      · rw [if_pos h]; simp [h]
      · rw [if_neg h, List.any_eq_true]; simp only [and_true, h, not_false_eq_true, true_and]
    constructor
    · intro h
      obtain ⟨⟨w, s⟩, hm, hh⟩ := List.any_eq_true.1 h
      obtain ⟨l, r, h, _⟩ := (hhit w s hm).1 hh
      exact ⟨w, l, r, h⟩
    · rintro ⟨w, l, r, h⟩
      obtain ⟨_, _, _, _, _, s, sw, _, hsw, _⟩ := id h
      exact List.any_eq_true.2 ⟨(w, sw), hsw, (hhit w sw hsw).2 ⟨l, r, h, trivial⟩⟩
  constructor
  · intro h
    unfold checkNIsNJ; rw [njRemovals_none, if_pos (key.2 h)]; rfl
  · intro h
    unfold checkNIsNJ
    rw [njRemovals_none, if_neg (fun hh => h (key.1 hh))]
    show Except.ok (selectTrueNouns nouns [], []) = _
    congr 2
    unfold selectTrueNouns
    rw [List.filter_eq_self]; simp

/-- C47: whatever methods are configured, post-processing keeps a sub-table: same order, same scores, nothing added. -/
theorem C47_pipeline_only_removes (pos common : List Str) (origin : Option (Nested Str)) (methods : List Str)
    (nouns kept : Dict Str (Rat × Rat)) (h : postProcessing pos common origin methods nouns = .ok kept) : kept.Sublist nouns := by
  induction methods generalizing nouns with
  | nil => cases h; exact List.Sublist.refl _
  | cons m ms ih =>
    unfold postProcessing at h ih
    rw [List.foldlM_cons] at h
    cases hm : postMethod pos common origin nouns m with
    | error e => rw [hm] at h; cases h
    | ok n1 =>
      rw [hm] at h
      refine (ih n1 h).trans ?_
      unfold postMethod at hm
      split at hm
      · cases hm; exact List.filter_sublist
      · split at hm
        · cases hm; exact List.filter_sublist
        · split at hm
          · unfold checkNIsNJ at hm
            cases hr : njRemovals nouns origin 5 nouns with
            | error e => rw [hr] at hm; cases hm
            | ok rs => rw [hr] at hm; cases hm; exact List.filter_sublist
          · cases hm; exact List.Sublist.refl _

/-- C47 (deviation): a noun extractor cannot be constructed with chosen post-processing methods: any non-empty argument
    is a TypeError; without one the three methods run in the fixed order. -/
theorem C47_chosen_methods_rejected (methods : List Str) (h : methods ≠ []) :
    initPostprocessing (some methods) = .error .typeError ∧
    initPostprocessing none = .ok ["detaching_features".toList, "ignore_features".toList, "ignore_NJ".toList] := by
  cases methods with
  | nil => exact absurd rfl h
  | cons m ms => exact ⟨rfl, rfl⟩

/-- C47: the default pipeline (no argument, or an empty list) on a graph that was not frozen. A word survives the first
    two steps iff it is not a noun plus a feature and not itself a positive or common feature; it is in the result iff
    moreover it is not a more frequent noun plus a josa, where the noun too must have survived the first two steps and
    have at least five josa among its right parts in the graph as constructed. -/
theorem C47_default_pipeline (arg : Option (List Str)) (harg : arg = none ∨ arg = some []) (pos common : List Str)
    (g : Nested Str) (nouns : Dict Str (Rat × Rat)) (hw : nouns.WF) :
    ∃ methods kept mid, initPostprocessing arg = .ok methods ∧ postProcessing pos common (some g) methods nouns = .ok kept ∧
      (∀ w s, (w, s) ∈ mid ↔ (w, s) ∈ nouns ∧ ¬ NounPlusFeature nouns pos w ∧ w ∉ pos ∧ w ∉ common) ∧
      (∀ w s, (w, s) ∈ kept ↔ (w, s) ∈ mid ∧
        ¬ ∃ l r, NounPlusJosa mid w l r ∧ 5 ≤ ((row g l).filter (fun e => josaset.contains e.1)).length) := by
  have hinit : initPostprocessing arg = .ok ["detaching_features".toList, "ignore_features".toList, "ignore_NJ".toList] := by
    rcases harg with rfl | rfl <;> rfl
  obtain ⟨n1, hn1⟩ : ∃ n1, (detachingFeatures nouns pos).1 = n1 := ⟨_, rfl⟩
  obtain ⟨n2, hn2⟩ : ∃ n2, (ignoreFeatures n1 (pos ++ common)).1 = n2 := ⟨_, rfl⟩
  have h1 := C47_detaching nouns pos
  have h2 := C47_ignoring n1 (pos ++ common)
  rw [hn1] at h1; rw [hn2] at h2
  have hw2 : n2.WF := (hw.sublist h1.1).sublist h2.1
  obtain ⟨kept, removed, hk, _, hm, _⟩ := C47_nj n2 hw2 g 5
  refine ⟨_, kept, n2, hinit, ?_, ?_, ?_⟩
  · have e1 : postMethod pos common (some g) nouns "detaching_features".toList = .ok n1 := by rw [← hn1]; rfl
    have e2 : postMethod pos common (some g) n1 "ignore_features".toList = .ok n2 := by rw [← hn2]; rfl
    have e3 : postMethod pos common (some g) n2 "ignore_NJ".toList = .ok kept := by
      show (checkNIsNJ n2 (some g)).map (·.1) = .ok kept
      rw [show checkNIsNJ n2 (some g) = .ok (kept, removed) from hk]; rfl
    have bok : ∀ {α β : Type} (x : α) (f : α → PyM β), (Except.ok x >>= f) = f x := fun _ _ => rfl
    unfold postProcessing
    rw [List.foldlM_cons, e1, bok, List.foldlM_cons, e2, bok, List.foldlM_cons, e3, bok]; rfl
  · intro w s
    rw [h2.2.1, h1.2.1, List.mem_append, not_or, and_assoc]
  · intro w s
    rw [hm]
    have hc : ∀ n : Nat, (5 : Int) ≤ (n : Int) ↔ 5 ≤ n := fun n => by omega
    simp only [hc]

/-! non-vacuity -/

example : detachingFeatures [("아이오".toList, (3 : Nat)), ("아이오에서".toList, 4), ("고양이".toList, 1)] ["에서".toList, "이".toList] =
    ([("아이오".toList, 3), ("고양이".toList, 1)], ["아이오에서".toList]) := by decide +kernel

/-- a graph whose noun has five josa -/
example : checkNIsNJ [("학교".toList, (10, 1)), ("학교는".toList, (2, 1)), ("학교장".toList, (2, 1))]
    (some [("학교".toList, [("는".toList, 2), ("를".toList, 1), ("에".toList, 1), ("도".toList, 1), ("의".toList, 1)])]) =
    .ok ([("학교".toList, (10, 1)), ("학교장".toList, (2, 1))], ["학교는".toList]) := by decide +kernel

example : postProcessing ["에서".toList] ["까지".toList] (some [("학교".toList, [("는".toList, 2), ("를".toList, 1), ("에".toList, 1), ("도".toList, 1), ("의".toList, 1)])])
    ["detaching_features".toList, "ignore_features".toList, "ignore_NJ".toList]
    [("학교".toList, (10, 1)), ("학교에서".toList, (3, 1)), ("학교는".toList, (2, 1)), ("까지".toList, (2, 1)), ("학교장".toList, (2, 1))] =
    .ok [("학교".toList, (10, 1)), ("학교장".toList, (2, 1))] := by decide +kernel

example : NounPlusJosa [("학교".toList, (10, 1)), ("학교는".toList, (2, 1))] "학교는".toList "학교".toList "는".toList :=
  ⟨rfl, by decide, by decide, by decide, by decide, (10, 1), (2, 1), by decide, by decide, by decide +kernel⟩

end Props
