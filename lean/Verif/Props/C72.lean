import Verif.Props.C71
import Verif.Proofs.Hangle
/-! C72: NewsPOSExtractor.extract returns for every corpus and every table of Korean lemmas; the adverbs it adds; a second call. -/
namespace Props
open Py PosSpec NewsPos Spec

/-- every lemma has a stem that ends with, and an ending that begins with, a Korean character -/
def KoreanLemmas (d : Dict Str Entry) : Prop :=
  ∀ w e, Dict.get? d w = some e → ∀ q ∈ e.2, (∃ c, q.1.getLast? = some c ∧ Korean c) ∧ ∃ c, q.2.head? = some c ∧ Korean c

theorem checkSuffixPrefix_ok {stem eomi : Str} (h1 : ∃ c, stem.getLast? = some c ∧ Korean c) (h2 : ∃ c, eomi.head? = some c ∧ Korean c) :
    ∃ b, checkSuffixPrefix stem eomi = .ok b := by
  obtain ⟨c, hc, kc⟩ := h1
  obtain ⟨d, hd, kd⟩ := h2
  cases h : checkSuffixPrefix stem eomi with
  | ok b => exact ⟨b, rfl⟩
  | error e =>
    exfalso
    rcases (joinUndefined_iff stem eomi).1 ⟨e, h⟩ with h | h | ⟨x, h, h'⟩ | ⟨x, y, l, _, h, h', _⟩
    · subst h; cases hc
    · subst h; cases hd
    · rw [hc] at h; cases h; exact h' kc
    · rw [hd] at h; cases h; exact h' kd

theorem getLast?_append_some {l q : Str} (h : ∃ c, q.getLast? = some c ∧ Korean c) : ∃ c, (l ++ q).getLast? = some c ∧ Korean c := by
  obtain ⟨c, hc, kc⟩ := h
  exact ⟨c, by rw [List.getLast?_append, hc]; rfl, kc⟩

theorem extract_ok_of_compounds {s : State} (hE : WordLike s.eojeols)
    (hm : ∃ y, matchPredicatorCompounds s (matchNounAndWord s (matchWord s)) = .ok y) : ∃ s' t, extract s = .ok (s', t) := by
  obtain ⟨⟨s2, f2⟩, hm⟩ := hm
  obtain ⟨ca, cv, st, -⟩ := matchPredicatorCompounds_stage hm
  have F := facts hE.1 st
  have hcn : ∃ f6, matchCompoundNouns { matchSyllableNounAndR (lemmatizingPredicators s2 f2).2 with
        eojeols := removeIrregularWords (lemmatizingPredicators s2 f2).1 (matchSyllableNounAndR (lemmatizingPredicators s2 f2).2).eojeols } = .ok f6 := by
    unfold matchCompoundNouns
    dsimp only
    have hw : ∀ w ∈ Dict.keys (removeIrregularWords (lemmatizingPredicators s2 f2).1 (matchSyllableNounAndR (lemmatizingPredicators s2 f2).2).eojeols),
        w ≠ [] ∧ ∀ c ∈ w, isSpace c = false := by
      intro w hw
      exact hE.2 w ((F.eoj w).1 hw).1.1
    obtain ⟨cs, hcs⟩ := compoundNouns_ok (matchSyllableNounAndR (lemmatizingPredicators s2 f2).2).nouns
      (fun w => Dict.has (matchSyllableNounAndR (lemmatizingPredicators s2 f2).2).nouns w ||
        Dict.has (matchSyllableNounAndR (lemmatizingPredicators s2 f2).2).adjectives w || Dict.has (matchSyllableNounAndR (lemmatizingPredicators s2 f2).2).verbs w ||
        Dict.has (matchSyllableNounAndR (lemmatizingPredicators s2 f2).2).josas w) _ hw
    rw [hcs]
    exact ⟨_, rfl⟩
  obtain ⟨f6, hf6⟩ := hcn
  unfold extract countMatchedPatterns
  rw [hm]
  dsimp only
  rw [hf6]
  exact ⟨_, _, rfl⟩

/-- C72 (a): `extract` raises exactly when some eojeol that is neither known nor a noun with an ending is read as a known predicator followed by a
    known adjective (verb) form, and for one of the lemmas of that form the test whether stem and ending join is undefined -/
theorem C72_raises_iff (s : State) (hE : WordLike s.eojeols) :
    (∃ e, extract s = .error e) ↔ ∃ w, In s.eojeols w ∧ ¬ Known s w ∧ (¬ ∃ l r, Reads (Standing s) (Ending s) w l r) ∧
      ∃ base ∈ [s.adjectives, s.verbs], ∃ a b p, ShortestRead (fun x => In s.adjectives x ∨ In s.verbs x) (In base) w a b ∧
        Dict.get? base b = some p ∧ ∃ q ∈ p.2, JoinUndefined (a ++ q.1) q.2 := by
  have hR : ∀ w, w ∈ Dict.keys (matchNounAndWord s (matchWord s)).eojeols ↔
      In s.eojeols w ∧ ¬ Known s w ∧ ¬ ∃ l r, Reads (Standing s) (Ending s) w l r := by
    intro w
    rw [← free_iff]
    exact free_keys s w
  have hL : ∀ x, (Dict.has s.adjectives x || Dict.has s.verbs x) = true ↔ In s.adjectives x ∨ In s.verbs x := by
    intro x; rw [Bool.or_eq_true, Dict.isSome_get?_iff, Dict.isSome_get?_iff]
  have key : ∀ (stems : Str → Bool) (base : Dict Str Entry),
      (∃ e, parseCompounds checkSuffixPrefix stems (fun w => Dict.has s.adjectives w || Dict.has s.verbs w) base
        (matchNounAndWord s (matchWord s)).eojeols = .error e) ↔
      ∃ w, In s.eojeols w ∧ ¬ Known s w ∧ (¬ ∃ l r, Reads (Standing s) (Ending s) w l r) ∧
        ∃ a b p, ShortestRead (fun x => In s.adjectives x ∨ In s.verbs x) (In base) w a b ∧
        Dict.get? base b = some p ∧ ∃ q ∈ p.2, JoinUndefined (a ++ q.1) q.2 := by
    intro stems base
    rw [parseCompounds_error_iff]
    simp only [compoundOf_error_iff hL, joinUndefined_iff, hR, and_assoc]
  constructor
  · rintro ⟨e, h⟩
    by_contra hn
    obtain ⟨s', t, ht⟩ := extract_ok_of_compounds hE (by
      unfold matchPredicatorCompounds
      dsimp only
      have k1 := key (fun w => s.verbStems.contains w || s.adjectiveStems.contains w) s.adjectives
      cases h1 : parseCompounds checkSuffixPrefix (fun w => s.verbStems.contains w || s.adjectiveStems.contains w)
          (fun w => Dict.has s.adjectives w || Dict.has s.verbs w) s.adjectives (matchNounAndWord s (matchWord s)).eojeols with
      | error e =>
        obtain ⟨w, a1, a2, a3, a4⟩ := k1.1 ⟨e, h1⟩
        exact absurd ⟨w, a1, a2, a3, s.adjectives, by simp, a4⟩ hn
      | ok adj =>
        dsimp only
        have k2 := key (fun w => s.verbStems.contains w || (s.adjectiveStems ++ stemsOf adj).contains w) s.verbs
        cases h2 : parseCompounds checkSuffixPrefix (fun w => s.verbStems.contains w || (s.adjectiveStems ++ stemsOf adj).contains w)
            (fun w => Dict.has s.adjectives w || Dict.has s.verbs w) s.verbs (matchNounAndWord s (matchWord s)).eojeols with
        | error e =>
          obtain ⟨w, a1, a2, a3, a4⟩ := k2.1 ⟨e, h2⟩
          exact absurd ⟨w, a1, a2, a3, s.verbs, by simp, a4⟩ hn
        | ok verb => exact ⟨_, rfl⟩)
    rw [ht] at h; cases h
  · rintro ⟨w, a1, a2, a3, base, hb, a4⟩
    have : ∃ e, matchPredicatorCompounds s (matchNounAndWord s (matchWord s)) = .error e := by
      unfold matchPredicatorCompounds
      dsimp only
      cases h1 : parseCompounds checkSuffixPrefix (fun w => s.verbStems.contains w || s.adjectiveStems.contains w)
          (fun w => Dict.has s.adjectives w || Dict.has s.verbs w) s.adjectives (matchNounAndWord s (matchWord s)).eojeols with
      | error e => exact ⟨e, rfl⟩
      | ok adj =>
        dsimp only
        cases h2 : parseCompounds checkSuffixPrefix (fun w => s.verbStems.contains w || (s.adjectiveStems ++ stemsOf adj).contains w)
            (fun w => Dict.has s.adjectives w || Dict.has s.verbs w) s.verbs (matchNounAndWord s (matchWord s)).eojeols with
        | error e => exact ⟨e, rfl⟩
        | ok verb =>
          exfalso
          rcases List.mem_cons.1 hb with rfl | hb
          · obtain ⟨e, he⟩ := (key (fun w => s.verbStems.contains w || s.adjectiveStems.contains w) s.adjectives).2 ⟨w, a1, a2, a3, a4⟩
            rw [h1] at he; cases he
          · rw [List.mem_singleton] at hb
            subst hb
            obtain ⟨e, he⟩ := (key (fun w => s.verbStems.contains w || (s.adjectiveStems ++ stemsOf adj).contains w) s.verbs).2 ⟨w, a1, a2, a3, a4⟩
            rw [h2] at he; cases he
    obtain ⟨e, he⟩ := this
    exact ⟨e, by unfold extract countMatchedPatterns; rw [he]⟩

/-- C72 (b): with Korean lemmas, `extract` raises for no corpus -/
theorem C72_total (s : State) (hE : WordLike s.eojeols) (hA : KoreanLemmas s.adjectives) (hV : KoreanLemmas s.verbs) :
    ∃ s' t, extract s = .ok (s', t) := by
  cases h : extract s with
  | ok x => exact ⟨x.1, x.2, rfl⟩
  | error e =>
    exfalso
    obtain ⟨w, -, -, -, base, hb, a, b, p, -, hp, q, hq, hj⟩ := (C72_raises_iff s hE).1 ⟨e, h⟩
    have hk : KoreanLemmas base := by
      rcases List.mem_cons.1 hb with rfl | hb
      · exact hA
      · rw [List.mem_singleton] at hb; subst hb; exact hV
    obtain ⟨h1, h2⟩ := hk b p hp q hq
    obtain ⟨o, ho⟩ := checkSuffixPrefix_ok (getLast?_append_some (l := a) h1) h2
    obtain ⟨e, he⟩ := (joinUndefined_iff _ _).2 hj
    rw [ho] at he; cases he

theorem demoPos_korean : KoreanLemmas demoPos.adjectives ∧ KoreanLemmas demoPos.verbs := by
  have h : ∀ d : Dict Str Entry, (∀ x ∈ d, ∀ q ∈ x.2.2, (∃ c ∈ q.1.getLast?, Korean c) ∧ ∃ c ∈ q.2.head?, Korean c) → KoreanLemmas d := by
    intro d hd w e he q hq
    have := hd (w, e) (Dict.mem_of_get? he) q hq
    obtain ⟨⟨c, h1, h2⟩, c', h3, h4⟩ := this
    exact ⟨⟨c, h1, h2⟩, c', h3, h4⟩
  constructor <;> (apply h; decide +kernel)

/-- the hypotheses of (b) are met -/
example : ∃ s' t, extract demoPos = .ok (s', t) := C72_total _ demoPos_wordLike demoPos_korean.1 demoPos_korean.2

/-- C72 (c): `stem_to_adverb` raises exactly for an empty stem; otherwise its members are the stems ending in 하 with each suffix in its place -/
theorem C72_stem_to_adverb (stems suffixs : List Str) :
    (stemToAdverb stems suffixs = .error .indexError ↔ [] ∈ stems ∧ suffixs ≠ []) ∧
    (¬ ([] ∈ stems ∧ suffixs ≠ []) → ∃ out, stemToAdverb stems suffixs = .ok out ∧
      ∀ a, a ∈ out ↔ ∃ p x, p ++ ['하'] ∈ stems ∧ x ∈ suffixs ∧ a = p ++ x) := by
  unfold stemToAdverb
  by_cases h0 : suffixs = []
  · subst h0
    simp
  · rw [if_neg h0]
    by_cases h1 : [] ∈ stems
    · rw [if_pos (by simpa using h1)]
      simp [h0, h1]
    · rw [if_neg (by simpa using h1)]
      refine ⟨by simp [h1], fun _ => ⟨_, rfl, fun a => ?_⟩⟩
      rw [List.mem_flatMap]
      constructor
      · rintro ⟨s, hs, ha⟩
        by_cases hl : s.getLast? = some '하'
        · rw [if_pos hl] at ha
          obtain ⟨x, hx, rfl⟩ := List.mem_map.1 ha
          obtain ⟨p, rfl⟩ := List.getLast?_eq_some_iff.1 hl
          exact ⟨p, x, hs, hx, by simp⟩
        · rw [if_neg hl] at ha; simp at ha
      · rintro ⟨p, x, hp, hx, rfl⟩
        refine ⟨_, hp, ?_⟩
        rw [if_pos (by simp)]
        exact List.mem_map.2 ⟨x, hx, by simp⟩

example : stemToAdverb ["조용하".toList, "먹".toList] = .ok ["조용히".toList] := by decide +kernel

/-- C72 (d): `extract` raises when a lemma of the second part of a compound has an empty ending -/
theorem C72_raises : ∃ s : State, WordLike s.eojeols ∧ extract s = .error .indexError := by
  refine ⟨⟨[], [("먹고".toList, 1, [("먹".toList, [])])], [], [], [], [], [], [], [("먹고먹고".toList, 1)]⟩, ?_, ?_⟩
  · unfold WordLike Dict.WF In; decide +kernel
  · have : ∀ x : PyM (State × WordTags), (match x with | .error e => decide (e = .indexError) | .ok _ => false) = true → x = .error .indexError := by
      intro x h; cases x with
      | error e => simpa using h
      | ok y => cases h
    exact this _ (by decide +kernel)

/-- C72 (e): `extract` is not a function of the training: the compounds found by one call are known predicators for the next, so the same object
    may return more verbs the second time -/
theorem C72_second_call : ∃ (s s' s'' : State) (t t' : WordTags), WordLike s.eojeols ∧ KoreanLemmas s.adjectives ∧ KoreanLemmas s.verbs ∧
    extract s = .ok (s', t) ∧ extract s' = .ok (s'', t') ∧ ∃ w, In t.irrecognizable w ∧ In t'.verb w := by
  obtain ⟨s, hs⟩ : ∃ s : State, s = { demoPos with eojeols := [("가다먹다".toList, 7), ("가다먹다먹다".toList, 2)] } := ⟨_, rfl⟩
  have h : (match extract s with
    | .ok (s', t) => (match extract s' with
      | .ok (_, t') => decide ("가다먹다먹다".toList ∈ Dict.keys t.irrecognizable ∧ "가다먹다먹다".toList ∈ Dict.keys t'.verb)
      | .error _ => false)
    | .error _ => false) = true := by subst hs; decide +kernel
  have hw : WordLike s.eojeols := by subst hs; unfold WordLike Dict.WF In; decide +kernel
  cases he : extract s with
  | error e => rw [he] at h; cases h
  | ok x =>
    rw [he] at h
    dsimp only at h
    cases he' : extract x.1 with
    | error e => rw [he'] at h; cases h
    | ok y =>
      rw [he'] at h
      refine ⟨s, x.1, y.1, x.2, y.2, hw, ?_, ?_, he, he', _, of_decide_eq_true h⟩
      · subst hs; exact demoPos_korean.1
      · subst hs; exact demoPos_korean.2

/-- C72 (f): with the statistics printed (the default), an extraction that would succeed raises ZeroDivisionError exactly when the corpus has no
    eojeols; otherwise printing changes nothing -/
theorem C72_verbose (s : State) (hpos : ∀ w n, (w, n) ∈ s.eojeols → 0 < n) :
    printing false extract s = extract s ∧
    (s.eojeols ≠ [] → printing true extract s = extract s) ∧
    (s.eojeols = [] → ∀ s' t, extract s = .ok (s', t) → printing true extract s = .error .zeroDivision) := by
  have h0 : (Dict.values s.eojeols).sum = 0 ↔ s.eojeols = [] := by
    cases hs : s.eojeols with
    | nil => simp [Dict.values]
    | cons x r =>
      have := hpos x.1 x.2 (by rw [hs]; exact List.mem_cons_self)
      simp only [Dict.values, List.map_cons, List.sum_cons]
      constructor
      · intro h; omega
      · intro h; cases h
  unfold printing
  refine ⟨?_, fun h => ?_, fun h s' t ht => ?_⟩
  · cases extract s with
    | error e => rfl
    | ok r => simp
  · cases extract s with
    | error e => rfl
    | ok r => dsimp only; rw [if_neg (fun hc => h (h0.1 hc.2))]
  · rw [ht]; dsimp only; rw [if_pos ⟨rfl, h0.2 h⟩]

/-- an extractor trained on an empty corpus: `extract` returns, unless it prints -/
example : ∃ s s' t, s.eojeols = [] ∧ extract s = .ok (s', t) ∧ printing true extract s = .error .zeroDivision := by
  obtain ⟨s', t, h⟩ := C72_total ⟨[], [], [], [], [], [], [], [], []⟩ ⟨by unfold Dict.WF; decide, by simp [In, Dict.keys]⟩
    (by intro w e h; cases h) (by intro w e h; cases h)
  exact ⟨_, _, _, rfl, h, (C72_verbose _ (by simp)).2.2 rfl _ _ h⟩

/-- an ending that does not begin with a Korean character: the test is undefined after a stem in ㅂ, and passes after one in ㄱ -/
example : JoinUndefined "먹고입".toList "a".toList ∧ Joinable "먹고먹".toList "a".toList := by
  constructor
  · rw [← joinUndefined_iff]; exact ⟨.typeError, by decide +kernel⟩
  · rw [← joinable_iff]; decide +kernel

end Props
