import Verif.Proofs.NewsPos5
/-! C69-C71: NewsPOSExtractor.extract. -/
namespace Props
open Py PosSpec NewsPos

/-- the eojeols are non-empty and have no blank, as in every corpus split at blanks -/
def WordLike (E : Dict Str Nat) : Prop := Dict.WF E ∧ ∀ w, In E w → w ≠ [] ∧ ∀ c ∈ w, isSpace c = false

theorem pos_words {s s' : State} {t : WordTags} {f : Found} {ca cv : Str → Option (List (Str × Str))} (N : News s s' t f ca cv) (w : Str) :
    (In t.adjective w ↔ In f.adjectives w) ∧ (In t.verb w ↔ In f.verbs w) ∧ (In t.adverb w ↔ In s.eojeols w ∧ w ∈ s.adverbs) ∧
    (In t.noun w ∨ In t.confusedNouns w ↔ In f.nouns w ∨ ∃ e, In f.eojeols e ∧ nounOf f.nouns (suffixOf f) e = some w) := by
  refine ⟨by rw [N.tA, In, keys_asPredicator N.facts.inv.wfA], by rw [N.tV, In, keys_asPredicator N.facts.inv.wfV], ?_, ?_⟩
  · rw [N.tB, In, mem_keys_filter _ (fun w => s.adverbs.contains w), List.contains_iff_mem]
  · have hc : ∀ w, In t.confusedNouns w ↔ w ∈ Dict.keys (cumulate f.nouns (cumulate [] (credit f.eojeols (nounOf f.nouns (suffixOf f))))) ∧
        (Dict.has f.adjectives w || Dict.has f.verbs w || Dict.has f.adverbs w) = true := by
      intro w
      rw [N.tC, In, mem_keys_filter _ (fun w => Dict.has f.adjectives w || Dict.has f.verbs w || Dict.has f.adverbs w)]
    have hn : In t.noun w ↔ w ∈ Dict.keys (cumulate f.nouns (cumulate [] (credit f.eojeols (nounOf f.nouns (suffixOf f))))) ∧ ¬ In t.confusedNouns w := by
      rw [N.tN, In, mem_keys_filter _ (fun w => !Dict.has t.confusedNouns w)]
      simp only [Bool.not_eq_true', has_eq_false]
    have hk : w ∈ Dict.keys (cumulate f.nouns (cumulate [] (credit f.eojeols (nounOf f.nouns (suffixOf f))))) ↔
        In f.nouns w ∨ ∃ e, In f.eojeols e ∧ nounOf f.nouns (suffixOf f) e = some w := by
      rw [mem_keys_cumulate, mem_keys_cumulate, mem_keys_credit]; simp [Dict.keys]
    rw [← hk, hn, hc]
    tauto

private theorem split_logic {K A V B C M : Prop} (h : C ↔ K ∧ ((A ∨ V) ∨ B)) (h' : M ↔ K ∧ ¬ C) :
    (M → ¬ A ∧ ¬ V ∧ ¬ B ∧ ¬ C) ∧ (C → A ∨ V ∨ B) := by tauto

/-- C69 (a): a returned noun is neither a returned adjective, verb nor adverb; the nouns set aside as confused are exactly of that kind -/
theorem C69_disjoint {s s' : State} {t : WordTags} (hE : WordLike s.eojeols) (h : extract s = .ok (s', t)) (w : Str) :
    (In t.noun w → ¬ In t.adjective w ∧ ¬ In t.verb w ∧ ¬ In t.adverb w ∧ ¬ In t.confusedNouns w) ∧
    (In t.confusedNouns w → In t.adjective w ∨ In t.verb w ∨ In t.adverb w) := by
  obtain ⟨f, ca, cv, N⟩ := extract_news hE.1 h
  obtain ⟨hA, hV, hB, _⟩ := pos_words N w
  have hfB : Dict.has f.adverbs w = true ↔ In t.adverb w := by rw [has_iff, N.facts.adverbs, N.tB]
  have hc : In t.confusedNouns w ↔ w ∈ Dict.keys (cumulate f.nouns (cumulate [] (credit f.eojeols (nounOf f.nouns (suffixOf f))))) ∧
      ((In t.adjective w ∨ In t.verb w) ∨ In t.adverb w) := by
    rw [N.tC, In, mem_keys_filter _ (fun w => Dict.has f.adjectives w || Dict.has f.verbs w || Dict.has f.adverbs w), Bool.or_eq_true, Bool.or_eq_true,
      hfB, has_iff, has_iff, hA, hV]
  have hn : In t.noun w ↔ w ∈ Dict.keys (cumulate f.nouns (cumulate [] (credit f.eojeols (nounOf f.nouns (suffixOf f))))) ∧ ¬ In t.confusedNouns w := by
    rw [N.tN, In, mem_keys_filter _ (fun w => !Dict.has t.confusedNouns w)]
    simp only [Bool.not_eq_true', has_eq_false]
  exact split_logic hc hn

/-- C69 (b): every word reported as irrecognizable is an eojeol of the corpus with its exact frequency, has at least two characters, is no word
    of the result, no particle and no ending, is not noun + ending, not one character + recognised word, and the noun tokenizer does not cut
    it into known nouns (with or without a final suffix) -/
theorem C69_irrecognizable {s s' : State} {t : WordTags} (hE : WordLike s.eojeols) (h : extract s = .ok (s', t)) (w : Str) (n : Nat)
    (hw : (w, n) ∈ t.irrecognizable) :
    (w, n) ∈ s.eojeols ∧ 2 ≤ w.length ∧ ¬ Known s w ∧ ¬ In t.adjective w ∧ ¬ In t.verb w ∧ ¬ In t.adverb w ∧ w ∉ s.josas ∧ w ∉ s.eomis ∧
    (¬ ∃ l r, Reads (Standing s) (Ending s) w l r) ∧
    ¬ In t.adjective (w.drop 1) ∧ ¬ In t.verb (w.drop 1) ∧ ¬ AttestedJosa s (w.drop 1) ∧
    ∃ init last, MaxScore.recursiveTokenize (nounScores s) 10 0 w = .ok (init ++ [last]) ∧
      ((∃ k ∈ init, k.score ≤ 0) ∨ last.score ≤ 0 ∧
        ¬ (2 ≤ init.length ∧ (Standing s last.word ∨ In t.adjective last.word ∨ In t.verb last.word ∨ AttestedJosa s last.word))) := by
  obtain ⟨f, ca, cv, N⟩ := extract_news hE.1 h
  have hk : w ∈ Dict.keys t.irrecognizable := List.mem_map.2 ⟨_, hw, rfl⟩
  rw [N.tI, mem_keys_removeRecognized] at hk
  obtain ⟨hk, hno⟩ := hk
  have hmem : (w, n) ∈ f.eojeols := by
    rw [N.tI] at hw; exact (List.mem_filter.1 hw).1
  have hmemE : (w, n) ∈ s.eojeols := by rw [N.facts.inv.sub] at hmem; exact (List.mem_filter.1 hmem).1
  obtain ⟨hf, hA, hV, hsyl, hirr⟩ := (N.facts.eoj w).1 hk
  obtain ⟨hin, hkn, hrd⟩ := free_iff.1 hf
  obtain ⟨qA, qV, qB, _⟩ := pos_words N w
  obtain ⟨rA, rV, _, _⟩ := pos_words N (w.drop 1)
  unfold irregular at hirr
  simp only [Bool.or_eq_false_iff, decide_eq_false_iff_not] at hirr
  obtain ⟨⟨h1, h2⟩, h3⟩ := hirr
  rw [N.josas] at h1
  rw [N.eomis] at h2
  obtain ⟨hne, hsp⟩ := hE.2 w hin
  unfold sylRead at hsyl
  simp only [Bool.or_eq_false_iff, has_eq_false] at hsyl
  obtain ⟨⟨s1, s2⟩, s3⟩ := hsyl
  refine ⟨hmemE, ?_, hkn, by rwa [qA], by rwa [qV], ?_, by simpa using h1, by simpa using h2, hrd, by rwa [rA], by rwa [rV],
    fun ha => s3 ((N.facts.keysJ _).2 (attested_iff.2 ha)), ?_⟩
  · have := List.length_pos_iff.2 hne; omega
  · rw [qB]; rintro ⟨_, hb⟩; exact hkn (Or.inr (Or.inr (Or.inr hb)))
  · have hsc : ∀ x, Dict.get? (scoresOf f.nouns) x = Dict.get? (nounScores s) x := by
      intro x
      unfold nounScores
      rw [get?_scoresOf, get?_map_one]
      have h4 := mem_keys_filter s.eojeols (fun w => s.nouns.contains w && decide (1 < w.length)) x
      have h5 : x ∈ Dict.keys f.nouns ∧ 1 < x.length ↔ x ∈ Dict.keys (s.eojeols.filter (fun e => s.nouns.contains e.1 && decide (1 < e.1.length))) := by
        rw [h4, N.facts.keysN, Bool.and_eq_true, decide_eq_true_iff, List.contains_iff_mem]
        constructor
        · rintro ⟨⟨ha, hb⟩ | ⟨e, _, _, _, _, rfl⟩, hl⟩
          · exact ⟨hb, ha, hl⟩
          · simp at hl
        · rintro ⟨ha, hb, hl⟩; exact ⟨Or.inl ⟨hb, ha⟩, hl⟩
      by_cases hx : x ∈ Dict.keys f.nouns ∧ 1 < x.length
      · rw [if_pos hx, if_pos (h5.1 hx)]
      · rw [if_neg hx, if_neg (fun h' => hx (h5.2 h'))]
    have hnone : nounOf f.nouns (suffixOf f) w = none := by simpa using hno
    obtain ⟨toks, ht, _⟩ := C14_tiles (nounScores s) 10 (by omega) 0 w hne
    have ht' := ht
    rw [← recursiveTokenize_congr hsc] at ht'
    obtain ⟨init, last, rfl, hor⟩ := nounOf_none hne hsp hnone ht'
    refine ⟨init, last, ht, ?_⟩
    rcases hor with hor | ⟨ho1, ho2⟩
    · exact Or.inl hor
    · right
      refine ⟨ho1, fun hc => ho2 ⟨hc.1, ?_⟩⟩
      obtain ⟨lA, lV, _, _⟩ := pos_words N last.word
      unfold suffixOf
      simp only [Bool.or_eq_true, has_iff]
      rcases hc.2 with hh | hh | hh | hh
      · exact Or.inl (Or.inl (Or.inl ((N.facts.keysN _).2 (Or.inl hh))))
      · exact Or.inl (Or.inl (Or.inr (lA.1 hh)))
      · exact Or.inl (Or.inr (lV.1 hh))
      · exact Or.inr ((N.facts.keysJ _).2 (attested_iff.2 hh))

/-- how the returned words account for an eojeol -/
inductive Explained (s : State) (t : WordTags) (w : Str) : Prop where
  | noun : In t.noun w → Explained s t w
  | confused : In t.confusedNouns w → Explained s t w
  | adjective : In t.adjective w → Explained s t w
  | verb : In t.verb w → Explained s t w
  | adverb : In t.adverb w → Explained s t w
  /-- a noun of at least two characters followed by a particle, adjective or verb -/
  | nounEnding (l r : Str) : Reads (Standing s) (Ending s) w l r → Explained s t w
  /-- a noun of one character followed by an adjective, verb or particle -/
  | syllable (c : Char) (r : Str) : w = c :: r → (In t.noun [c] ∨ In t.confusedNouns [c]) → (In t.adjective r ∨ In t.verb r ∨ AttestedJosa s r) →
      Explained s t w
  | josa : w ∈ s.josas → Explained s t w
  | eomi : w ∈ s.eomis → Explained s t w
  | single : w.length = 1 → Explained s t w
  /-- a compound of at least two nouns, possibly with a suffix -/
  | compound (parts : List Str) (rest : Str) : w = parts.flatten ++ rest → (In t.noun parts.flatten ∨ In t.confusedNouns parts.flatten) →
      2 ≤ parts.length → (∀ p ∈ parts, Standing s p ∧ 2 ≤ p.length) →
      (rest = [] ∨ In t.noun rest ∨ In t.confusedNouns rest ∨ In t.adjective rest ∨ In t.verb rest ∨ AttestedJosa s rest) → Explained s t w

/-- C69 (c): every eojeol of the corpus that is not reported as irrecognizable has an explanation by the returned words -/
theorem C69_coverage {s s' : State} {t : WordTags} (hE : WordLike s.eojeols) (h : extract s = .ok (s', t)) (w : Str) (hw : In s.eojeols w)
    (hi : ¬ In t.irrecognizable w) :
    Explained s t w := by
  obtain ⟨f, ca, cv, N⟩ := extract_news hE.1 h
  obtain ⟨qA, qV, qB, qN⟩ := pos_words N w
  by_cases hA : In t.adjective w
  · exact .adjective hA
  by_cases hV : In t.verb w
  · exact .verb hV
  by_cases hF : Free s w
  · by_cases hS : sylRead f w = true
    · obtain ⟨hne, _⟩ := hE.2 w hw
      cases w with
      | nil => exact absurd rfl hne
      | cons c r =>
        refine .syllable c r rfl ?_ ?_
        · rw [(pos_words N [c]).2.2.2]
          refine Or.inl ((N.facts.keysN _).2 (Or.inr ⟨c :: r, hF, by rwa [← In, ← qA], by rwa [← In, ← qV], hS, rfl⟩))
        · unfold sylRead at hS
          simp only [Bool.or_eq_true, has_iff, List.drop_one, List.tail_cons] at hS
          obtain ⟨rA, rV, _, _⟩ := pos_words N r
          rw [rA, rV, ← attested_iff, ← N.facts.keysJ]
          exact or_assoc.1 hS
    · by_cases hR : irregular s' w = true
      · unfold irregular at hR
        rw [N.josas, N.eomis] at hR
        simp only [Bool.or_eq_true, decide_eq_true_eq, List.contains_iff_mem] at hR
        rcases hR with (hR | hR) | hR
        · exact .josa hR
        · exact .eomi hR
        · exact .single hR
      · have hk : w ∈ Dict.keys f.eojeols := (N.facts.eoj w).2 ⟨hF, by rwa [← In, ← qA], by rwa [← In, ← qV], by simpa using hS, by simpa using hR⟩
        have hn : (nounOf f.nouns (suffixOf f) w).isSome = true := by
          by_contra hn
          exact hi (by rw [N.tI, In, mem_keys_removeRecognized]; exact ⟨hk, by simpa using hn⟩)
        obtain ⟨n, hn⟩ := Option.isSome_iff_exists.1 hn
        obtain ⟨hne, hsp⟩ := hE.2 w hw
        obtain ⟨parts, rest, h1, rfl, h3, h4, h5⟩ := nounOf_some hne hsp hn
        have hparts : ∀ p ∈ parts, Standing s p ∧ 2 ≤ p.length := by
          intro p hp
          obtain ⟨h6, h7⟩ := h4 p hp
          rcases (N.facts.keysN p).1 h6 with h8 | ⟨e, _, _, _, _, rfl⟩
          · exact ⟨h8, h7⟩
          · simp at h7
        have hlen : 2 ≤ parts.length := by
          rcases h5 with rfl | h5
          · cases parts with
            | nil => exact absurd rfl h3
            | cons p ps =>
              cases ps with
              | nil =>
                exfalso
                simp only [List.flatten_cons, List.flatten_nil, List.append_nil] at h1
                subst h1
                exact (free_iff.1 hF).2.1 (Or.inl (hparts w (by simp)).1.1)
              | cons q qs => simp
          · exact h5.1
        refine .compound parts rest h1 ((pos_words N _).2.2.2.2 (Or.inr ⟨w, hk, hn⟩)) hlen hparts ?_
        rcases h5 with h5 | ⟨_, h5⟩
        · exact Or.inl h5
        · right
          obtain ⟨lA, lV, _, lN⟩ := pos_words N rest
          unfold suffixOf at h5
          simp only [Bool.or_eq_true, has_iff] at h5
          rw [lA, lV, ← attested_iff, ← N.facts.keysJ]
          rcases h5 with ((h5 | h5) | h5) | h5
          · rcases lN.2 (Or.inl h5) with h6 | h6
            · exact Or.inl h6
            · exact Or.inr (Or.inl h6)
          · exact Or.inr (Or.inr (Or.inl h5))
          · exact Or.inr (Or.inr (Or.inr (Or.inl h5)))
          · exact Or.inr (Or.inr (Or.inr (Or.inr h5)))
  · have hno : Known s w ∨ ∃ l r, Reads (Standing s) (Ending s) w l r := by
      by_contra hc
      rw [not_or] at hc
      exact hF (free_iff.2 ⟨hw, hc.1, hc.2⟩)
    rcases hno with hk | hk
    · rcases hk with hk | hk | hk | hk
      · rcases qN.2 (Or.inl ((N.facts.keysN w).2 (Or.inl ⟨hk, hw⟩))) with h' | h'
        · exact .noun h'
        · exact .confused h'
      · exact absurd (qA.2 ((N.facts.keysA w).2 (Or.inl ⟨hw, hk⟩))) hA
      · exact absurd (qV.2 ((N.facts.keysV w).2 (Or.inl ⟨hw, hk⟩))) hV
      · exact .adverb (qB.2 ⟨hw, hk⟩)
    · obtain ⟨l, r, hk⟩ := hk
      exact .nounEnding l r hk

end Props

namespace Props
open Py PosSpec NewsPos

/-- a small trained extractor, used as an example -/
def demoPos : State :=
  { nouns := ["학교".toList, "대학".toList]
    adjectives := [("예쁘다".toList, (3, [("예쁘".toList, "다".toList)]))]
    verbs := [("가다".toList, (2, [("가".toList, "다".toList)])), ("먹다".toList, (1, [("먹".toList, "다".toList)]))]
    adjectiveStems := ["예쁘".toList]
    verbStems := ["가".toList, "먹".toList]
    eomis := ["다".toList, "고".toList, "는".toList]
    josas := ["가".toList, "는".toList, "에서".toList]
    adverbs := ["매우".toList]
    eojeols := [("학교".toList, 5), ("대학".toList, 2), ("학교가".toList, 3), ("학교가다".toList, 1), ("가다".toList, 4), ("예쁘고".toList, 2),
      ("매우".toList, 3), ("대학학교".toList, 1), ("대학학교에서".toList, 2), ("학교에서".toList, 1), ("나가다".toList, 2), ("뷁뷁뷁".toList, 1), ("가다먹다".toList, 7)] }

theorem demoPos_wordLike : WordLike demoPos.eojeols := by
  refine ⟨by unfold Dict.WF; decide +kernel, ?_⟩
  have : ∀ w ∈ Dict.keys demoPos.eojeols, w ≠ [] ∧ ∀ c ∈ w, isSpace c = false := by decide +kernel
  exact this

/-- the hypotheses are met: the example returns words of every kind -/
example : ∃ s' t, extract demoPos = .ok (s', t) ∧ In t.noun "대학학교".toList ∧ In t.noun "나".toList ∧ In t.adjective "예쁘고".toList ∧
    In t.verb "가다먹다".toList ∧ "가다먹".toList ∈ t.verbStem ∧ In t.adverb "매우".toList ∧ t.irrecognizable = [("뷁뷁뷁".toList, 1)] := by
  have h : (match extract demoPos with
    | .ok (_, t) => decide ("대학학교".toList ∈ Dict.keys t.noun ∧ "나".toList ∈ Dict.keys t.noun ∧ "예쁘고".toList ∈ Dict.keys t.adjective ∧
        "가다먹다".toList ∈ Dict.keys t.verb ∧ "가다먹".toList ∈ t.verbStem ∧ "매우".toList ∈ Dict.keys t.adverb ∧
        t.irrecognizable = [("뷁뷁뷁".toList, 1)])
    | .error _ => false) = true := by decide +kernel
  cases he : extract demoPos with
  | error e => rw [he] at h; cases h
  | ok x =>
    rw [he] at h
    exact ⟨x.1, x.2, rfl, of_decide_eq_true h⟩

end Props
