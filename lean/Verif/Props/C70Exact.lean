import Verif.Proofs.NewsPos7
import Verif.Props.C71
import Verif.Props.C74
/-! C69-C71 and C74, exact: which words the POS extractors return, and with which frequencies. -/
namespace Props
open Py PosSpec NewsPos

private theorem shown {s s' : State} {t : WordTags} {f : Found} {ca cv : Str → Option (List (Str × Str))} (N : News s s' t f ca cv) : Shown s s' f t :=
  ⟨fun w => (pos_words N w).1, fun w => (pos_words N w).2.1, fun r => (N.facts.keysJ r).trans attested_iff, N.tE, N.tJ⟩

/-- C70 (f): the exact frequency of a returned adjective: as often as it occurs alone, plus the unknown eojeols whose shortest reading as noun +
    known adjective ends with it, plus the eojeols left over that are one character + it -/
theorem C70_adjective_exact {s s' : State} {t : WordTags} (hE : WordLike s.eojeols) (h : extract s = .ok (s', t)) (w : Str) (n : Nat)
    (l : Option (List (Str × Str))) (hw : Dict.get? t.adjective w = some (n, l)) :
    n = Dict.getD s.eojeols w 0 +
      total s.eojeols (fun e => ¬ Known s e ∧ ∃ l, ShortestRead (Standing s) (fun r => In s.eojeols r ∧ In s.adjectives r) e l w) +
      total s.eojeols (fun e => Leftover s t e ∧ ∃ c, e = c :: w) := by
  obtain ⟨f, ca, cv, N⟩ := extract_news hE.1 h
  rw [N.tA, get?_asPredicator N.facts.inv.wfA] at hw
  obtain ⟨m, hm, he⟩ := Option.map_eq_some_iff.1 hw
  cases he
  have hk : w ∈ Dict.keys f.adjectives := by rw [← Dict.isSome_get?_iff, hm]; rfl
  rw [← adjective_count (fun w hw => (hE.2 w hw).1) N.facts (shown N) hk, getD_of_has hm]

/-- C70 (g): the same for verbs -/
theorem C70_verb_exact {s s' : State} {t : WordTags} (hE : WordLike s.eojeols) (h : extract s = .ok (s', t)) (w : Str) (n : Nat)
    (l : Option (List (Str × Str))) (hw : Dict.get? t.verb w = some (n, l)) :
    n = Dict.getD s.eojeols w 0 +
      total s.eojeols (fun e => ¬ Known s e ∧ ∃ l, ShortestRead (Standing s) (fun r => In s.eojeols r ∧ In s.verbs r) e l w) +
      total s.eojeols (fun e => Leftover s t e ∧ ∃ c, e = c :: w) := by
  obtain ⟨f, ca, cv, N⟩ := extract_news hE.1 h
  rw [N.tV, get?_asPredicator N.facts.inv.wfV] at hw
  obtain ⟨m, hm, he⟩ := Option.map_eq_some_iff.1 hw
  cases he
  have hk : w ∈ Dict.keys f.verbs := by rw [← Dict.isSome_get?_iff, hm]; rfl
  rw [← verb_count (fun w hw => (hE.2 w hw).1) N.facts (shown N) hk, getD_of_has hm]

private theorem suffix_free {s s' : State} {t : WordTags} {f : Found} {ca cv : Str → Option (List (Str × Str))} (N : News s s' t f ca cv) (w : Str) (n : Nat)
    (hw : Dict.get? t.noun w = some n ∨ Dict.get? t.confusedNouns w = some n) :
    n = Dict.getD f.nouns w 0 + mass f.eojeols (fun e => decide (nounOf f.nouns (suffixOf f) e = some w)) := by
  have hwf : Dict.WF (cumulate f.nouns (cumulate [] (credit f.eojeols (nounOf f.nouns (suffixOf f))))) := wf_cumulate N.facts.inv.wfN _
  have hn : Dict.get? (cumulate f.nouns (cumulate [] (credit f.eojeols (nounOf f.nouns (suffixOf f))))) w = some n := by
    rcases hw with hw | hw
    · rw [N.tN, Dict.get?_filter hwf] at hw
      exact (Option.filter_eq_some_iff.1 hw).1
    · rw [N.tC, Dict.get?_filter hwf] at hw
      exact (Option.filter_eq_some_iff.1 hw).1
  have hn' := getD_of_has hn
  rw [getD_cumulate_dict _ (wf_cumulate Dict.wf_nil _), getD_cumulate, mass_credit] at hn'
  have h0 : Dict.getD ([] : Dict Str Nat) w 0 = 0 := rfl
  rw [h0, Nat.zero_add] at hn'
  exact hn'.symm

open Classical in
/-- C70 (h): the exact frequency of a returned noun (confused or not): as often as it occurs alone, if it is a known noun; plus, for each of
    particles, known adjectives and known verbs, the unknown eojeols whose shortest reading as noun + such a word begins with it; plus, for each of
    returned adjectives, verbs and particles, the eojeols left over that are the noun, if a single character, + such a word; plus the remaining
    eojeols that are a compound of it. An eojeol with several of these readings is counted for each. -/
theorem C70_noun_exact {s s' : State} {t : WordTags} (hE : WordLike s.eojeols) (h : extract s = .ok (s', t)) (w : Str) (n : Nat)
    (hw : Dict.get? t.noun w = some n ∨ Dict.get? t.confusedNouns w = some n) :
    n = (if w ∈ s.nouns then Dict.getD s.eojeols w 0 else 0) +
      (total s.eojeols (fun e => ¬ Known s e ∧ ∃ r, ShortestRead (Standing s) (· ∈ s.josas) e w r) +
       total s.eojeols (fun e => ¬ Known s e ∧ ∃ r, ShortestRead (Standing s) (fun r => In s.eojeols r ∧ In s.adjectives r) e w r) +
       total s.eojeols (fun e => ¬ Known s e ∧ ∃ r, ShortestRead (Standing s) (fun r => In s.eojeols r ∧ In s.verbs r) e w r)) +
      (total s.eojeols (fun e => Leftover s t e ∧ ∃ c r, e = c :: r ∧ w = [c] ∧ In t.adjective r) +
       total s.eojeols (fun e => Leftover s t e ∧ ∃ c r, e = c :: r ∧ w = [c] ∧ In t.verb r) +
       total s.eojeols (fun e => Leftover s t e ∧ ∃ c r, e = c :: r ∧ w = [c] ∧ AttestedJosa s r)) +
      total s.eojeols (fun e => Residual s t e ∧ CompoundNoun s t e w) := by
  obtain ⟨f, ca, cv, N⟩ := extract_news hE.1 h
  have hne : ∀ w, In s.eojeols w → w ≠ [] := fun w hw => (hE.2 w hw).1
  rw [suffix_free N w n hw, noun_count hne N.facts (shown N) w]
  congr 1
  have h1 : mass f.eojeols (fun e => decide (nounOf f.nouns (suffixOf f) e = some w)) =
      mass s.eojeols (fun e => Dict.has f.eojeols e && decide (nounOf f.nouns (suffixOf f) e = some w)) :=
    mass_sub N.facts.inv.sub _ _ (fun e _ => (has_iff _ _).symm)
  rw [h1]
  apply total_congr_bool
  intro e he
  rw [Bool.and_eq_true, has_iff, residual_iff N.facts (shown N), decide_eq_true_iff, compoundNoun_iff hne N.facts (shown N) (hne e he) (hE.2 e he).2]

/-- C71 (f): the returned nouns, confused or not, are exactly the plain nouns and the nouns of which a remaining eojeol is a compound -/
theorem C71_noun_iff {s s' : State} {t : WordTags} (hE : WordLike s.eojeols) (h : extract s = .ok (s', t)) (w : Str) :
    In t.noun w ∨ In t.confusedNouns w ↔ PlainNoun s t w ∨ ∃ e, Residual s t e ∧ CompoundNoun s t e w := by
  obtain ⟨f, ca, cv, N⟩ := extract_news hE.1 h
  have hne : ∀ w, In s.eojeols w → w ≠ [] := fun w hw => (hE.2 w hw).1
  rw [(pos_words N w).2.2.2, In, plainNoun_iff hne N.facts (shown N)]
  refine or_congr_right (exists_congr fun e => ?_)
  rw [In, residual_iff N.facts (shown N)]
  refine and_congr_right fun hr => ?_
  have hin : In s.eojeols e := hr.1.1.1
  exact compoundNoun_iff hne N.facts (shown N) (hne e hin) (hE.2 e hin).2

/-- C71 (g): a noun is returned as confused exactly if it is also returned as adjective, verb or adverb -/
theorem C71_confused_iff {s s' : State} {t : WordTags} (hE : WordLike s.eojeols) (h : extract s = .ok (s', t)) (w : Str)
    (hw : In t.noun w ∨ In t.confusedNouns w) : In t.confusedNouns w ↔ In t.adjective w ∨ In t.verb w ∨ In t.adverb w := by
  obtain ⟨h1, h2⟩ := C69_disjoint hE h w
  refine ⟨h2, fun h3 => hw.resolve_left fun hn => ?_⟩
  obtain ⟨a, b, c, _⟩ := h1 hn
  rcases h3 with h3 | h3 | h3
  · exact a h3
  · exact b h3
  · exact c h3

/-- C69 (d): an eojeol is reported as irrecognizable, with its frequency, exactly if it is a remaining eojeol that is no compound noun -/
theorem C69_irrecognizable_iff {s s' : State} {t : WordTags} (hE : WordLike s.eojeols) (h : extract s = .ok (s', t)) (w : Str) (n : Nat) :
    (w, n) ∈ t.irrecognizable ↔ (w, n) ∈ s.eojeols ∧ Residual s t w ∧ ¬ ∃ v, CompoundNoun s t w v := by
  obtain ⟨f, ca, cv, N⟩ := extract_news hE.1 h
  have hne : ∀ w, In s.eojeols w → w ≠ [] := fun w hw => (hE.2 w hw).1
  have hmem : (w, n) ∈ f.eojeols ↔ (w, n) ∈ s.eojeols ∧ Residual s t w := by
    have : (w, n) ∈ f.eojeols ↔ (w, n) ∈ s.eojeols.filter (fun e => Dict.has f.eojeols e.1) := by rw [← N.facts.inv.sub]
    rw [this, List.mem_filter, has_iff, residual_iff N.facts (shown N)]
  rw [N.tI]
  unfold removeRecognized
  rw [List.mem_filter, hmem, and_assoc]
  refine and_congr_right fun h1 => and_congr_right fun h2 => ?_
  have hin : In s.eojeols w := h2.1.1.1
  simp only [← compoundNoun_iff hne N.facts (shown N) (hne w hin) (hE.2 w hin).2]
  rw [Bool.not_eq_true', Option.isSome_eq_false_iff, Option.isNone_iff_eq_none, Option.eq_none_iff_forall_not_mem, not_exists]
  rfl

private theorem noneOf (v a : List Str) (x : Str) : (v.contains x || a.contains x) = false ↔ x ∉ a ∧ x ∉ v := by
  rw [Bool.or_eq_false_iff, ← Bool.not_eq_true, ← Bool.not_eq_true, List.contains_iff_mem, List.contains_iff_mem]; exact and_comm

private theorem pred_iff (s : State) (x : Str) : predicator s x = true ↔ In s.adjectives x ∨ In s.verbs x := by
  unfold predicator; rw [Bool.or_eq_true, has_iff, has_iff]

private theorem comp_iff {s : State} {stems : Str → Bool} {newStem : Str → Prop} {base : Dict Str Entry} {w : Str} {c : Option (List (Str × Str))}
    (hn : ∀ x, stems x = false ↔ newStem x) (hc : c = compOf checkSuffixPrefix stems (predicator s) base w)
    (hok : compoundOf checkSuffixPrefix stems (predicator s) base w = .ok c) :
    c.isSome = true ↔ ∃ ls, CompoundLemmas s newStem base w ls := by
  constructor
  · intro h
    obtain ⟨ls, hls⟩ := Option.isSome_iff_exists.1 h
    rw [hc] at hls
    obtain ⟨a, b, e, h3, h4, h5, h6⟩ := compOf_some (pred_iff s) hls
    exact ⟨ls, a, b, e, h3, h4, h5, fun q => by rw [h6 q]; simp only [hn]⟩
  · rintro ⟨ls, a, b, e, h1, h2, h3, h4⟩
    cases c with
    | some x => rfl
    | none =>
      obtain ⟨q, hq⟩ := List.exists_mem_of_ne_nil ls h3
      obtain ⟨stem, h5, h6, h7, h8⟩ := (h4 q).1 hq
      have := compOf_none (pred_iff s) hok a b e h1 h2 stem q.2 h5 (by rw [← h6]; exact h7)
      rw [← h6, (hn _).2 h8] at this
      cases this

private theorem lem_iff {stems eomis : List Str} {w : Str} : (lemmatize stems eomis w).isSome = true ↔ ∃ ls, KnownLemmas stems eomis w ls := by
  constructor
  · intro h
    obtain ⟨ls, hls⟩ := Option.isSome_iff_exists.1 h
    exact ⟨ls, lemmatize_some hls⟩
  · rintro ⟨ls, h1, h2, l, r, out, h3, h4, h5, h6, _⟩
    cases hl : lemmatize stems eomis w with
    | some x => rfl
    | none =>
      obtain ⟨q, hq⟩ := List.exists_mem_of_ne_nil ls h1
      have hq' := (h6 q).1 hq
      exact absurd hq'.2 (lemmatize_none hl l r h3 h4 out h5 q hq'.1)

/-- C71 (h): the returned adjectives are exactly the known adjectives that occur and the unread eojeols that are compounds with an adjective, or are no
    compound of either kind and have lemmas of known adjective stem and known ending -/
theorem C71_adjective_iff {s s' : State} {t : WordTags} (hE : WordLike s.eojeols) (h : extract s = .ok (s', t)) (w : Str) :
    In t.adjective w ↔ In s.eojeols w ∧ In s.adjectives w ∨ Unread s w ∧ ((∃ ls, CompoundLemmas s (NewStem s) s.adjectives w ls) ∨
      (¬ ∃ ls, CompoundLemmas s (NewStem s) s.adjectives w ls) ∧
      (¬ ∃ ls, CompoundLemmas s (fun x => x ∉ t.adjectiveStem ∧ x ∉ s.verbStems) s.verbs w ls) ∧ ∃ ls, KnownLemmas t.adjectiveStem t.eomi w ls) := by
  obtain ⟨f, ca, cv, N⟩ := extract_news hE.1 h
  rw [(pos_words N w).1, In, N.facts.keysA, free_iff]
  refine or_congr_right (and_congr_right fun hu => ?_)
  have ok := N.ok w (free_iff.2 hu)
  rw [← comp_iff (newStem := NewStem s) (fun x => noneOf s.verbStems s.adjectiveStems x) (by rw [N.eca]) ok.1,
    ← comp_iff (newStem := fun x => x ∉ t.adjectiveStem ∧ x ∉ s.verbStems) (fun x => by rw [N.tAS]; exact noneOf s.verbStems s'.adjectiveStems x) (by rw [N.ecv]) ok.2, N.tAS, N.tE, ← lem_iff]
  simp only [Bool.not_eq_true]

/-- C71 (i): the same for verbs -/
theorem C71_verb_iff {s s' : State} {t : WordTags} (hE : WordLike s.eojeols) (h : extract s = .ok (s', t)) (w : Str) :
    In t.verb w ↔ In s.eojeols w ∧ In s.verbs w ∨ Unread s w ∧
      ((∃ ls, CompoundLemmas s (fun x => x ∉ t.adjectiveStem ∧ x ∉ s.verbStems) s.verbs w ls) ∨
      (¬ ∃ ls, CompoundLemmas s (NewStem s) s.adjectives w ls) ∧
      (¬ ∃ ls, CompoundLemmas s (fun x => x ∉ t.adjectiveStem ∧ x ∉ s.verbStems) s.verbs w ls) ∧ ∃ ls, KnownLemmas t.verbStem t.eomi w ls) := by
  obtain ⟨f, ca, cv, N⟩ := extract_news hE.1 h
  rw [(pos_words N w).2.1, In, N.facts.keysV, free_iff]
  refine or_congr_right (and_congr_right fun hu => ?_)
  have ok := N.ok w (free_iff.2 hu)
  rw [← comp_iff (newStem := NewStem s) (fun x => noneOf s.verbStems s.adjectiveStems x) (by rw [N.eca]) ok.1,
    ← comp_iff (newStem := fun x => x ∉ t.adjectiveStem ∧ x ∉ s.verbStems) (fun x => by rw [N.tAS]; exact noneOf s.verbStems s'.adjectiveStems x) (by rw [N.ecv]) ok.2, N.tVS, N.tE, ← lem_iff]
  simp only [Bool.not_eq_true]

private theorem shownChat {s s' : State} {t : WordTags} {f : Found} {ca cv : Str → Option (List (Str × Str))} {R : Dict Str Nat} (C : Chat s s' t f ca cv R) : Shown s s' f t :=
  ⟨fun w => by rw [C.tA, In, keys_asPredicator C.facts.inv.wfA], fun w => by rw [C.tV, In, keys_asPredicator C.facts.inv.wfV],
    fun r => (C.facts.keysJ r).trans attested_iff, C.tE, C.tJ⟩

open Classical in
/-- C74 (d): the frequencies of the chat extractor, exactly. They are those of the news extractor with the particles of the chat list, without the
    compounds. -/
theorem C74_frequencies_exact {josas : List Str} {s s' : State} {t : WordTags} (hE : WordLike s.eojeols) (h : chatExtract josas s = .ok (s', t)) (w : Str) :
    let p := withJosas josas s
    (∀ n l, Dict.get? t.adjective w = some (n, l) → n = Dict.getD s.eojeols w 0 +
      total s.eojeols (fun e => ¬ Known s e ∧ ∃ l, ShortestRead (Standing s) (fun r => In s.eojeols r ∧ In s.adjectives r) e l w) +
      total s.eojeols (fun e => Leftover p t e ∧ ∃ c, e = c :: w)) ∧
    (∀ n l, Dict.get? t.verb w = some (n, l) → n = Dict.getD s.eojeols w 0 +
      total s.eojeols (fun e => ¬ Known s e ∧ ∃ l, ShortestRead (Standing s) (fun r => In s.eojeols r ∧ In s.verbs r) e l w) +
      total s.eojeols (fun e => Leftover p t e ∧ ∃ c, e = c :: w)) ∧
    (∀ n, Dict.get? t.noun w = some n ∨ Dict.get? t.confusedNouns w = some n → n = (if w ∈ s.nouns then Dict.getD s.eojeols w 0 else 0) +
      (total s.eojeols (fun e => ¬ Known s e ∧ ∃ r, ShortestRead (Standing s) (· ∈ josas) e w r) +
       total s.eojeols (fun e => ¬ Known s e ∧ ∃ r, ShortestRead (Standing s) (fun r => In s.eojeols r ∧ In s.adjectives r) e w r) +
       total s.eojeols (fun e => ¬ Known s e ∧ ∃ r, ShortestRead (Standing s) (fun r => In s.eojeols r ∧ In s.verbs r) e w r)) +
      (total s.eojeols (fun e => Leftover p t e ∧ ∃ c r, e = c :: r ∧ w = [c] ∧ In t.adjective r) +
       total s.eojeols (fun e => Leftover p t e ∧ ∃ c r, e = c :: r ∧ w = [c] ∧ In t.verb r) +
       total s.eojeols (fun e => Leftover p t e ∧ ∃ c r, e = c :: r ∧ w = [c] ∧ AttestedJosa p r))) := by
  obtain ⟨f, ca, cv, R, C⟩ := extract_chat hE.1 h
  have hne : ∀ w, In (withJosas josas s).eojeols w → w ≠ [] := fun w hw => (hE.2 w hw).1
  refine ⟨?_, ?_, ?_⟩
  · intro n l hw
    rw [C.tA, get?_asPredicator C.facts.inv.wfA] at hw
    obtain ⟨m, hm, he⟩ := Option.map_eq_some_iff.1 hw
    cases he
    have hk : w ∈ Dict.keys f.adjectives := by rw [← Dict.isSome_get?_iff, hm]; rfl
    exact (getD_of_has hm).symm.trans (adjective_count hne C.facts (shownChat C) hk)
  · intro n l hw
    rw [C.tV, get?_asPredicator C.facts.inv.wfV] at hw
    obtain ⟨m, hm, he⟩ := Option.map_eq_some_iff.1 hw
    cases he
    have hk : w ∈ Dict.keys f.verbs := by rw [← Dict.isSome_get?_iff, hm]; rfl
    exact (getD_of_has hm).symm.trans (verb_count hne C.facts (shownChat C) hk)
  · intro n hw
    have hg : Dict.get? f.nouns w = some n := by
      rcases hw with hw | hw
      · rw [C.tN, Dict.get?_filter C.facts.inv.wfN] at hw
        exact (Option.filter_eq_some_iff.1 hw).1
      · rw [C.tC] at hw
        split at hw
        · exact hw
        · cases hw
    exact (getD_of_has hg).symm.trans (noun_count hne C.facts (shownChat C) w)

/-- the hypotheses are met, with a noun, a verb and an irrecognizable word: 학교 is counted 5 times alone, 3 + 1 times before a particle and once before
    the verb 가다, which is itself counted 4 times alone, once after 학교 and twice after 나 -/
example : ∃ s' t, extract demoPos = .ok (s', t) ∧ Dict.get? t.noun "학교".toList = some 10 ∧ (Dict.get? t.verb "가다".toList).map (·.1) = some 7 ∧
    ("뷁뷁뷁".toList, 1) ∈ t.irrecognizable := by
  have h : (match extract demoPos with
    | .ok (_, t) => decide (Dict.get? t.noun "학교".toList = some 10 ∧ (Dict.get? t.verb "가다".toList).map (·.1) = some 7 ∧
        ("뷁뷁뷁".toList, 1) ∈ t.irrecognizable)
    | .error _ => false) = true := by decide +kernel
  cases he : extract demoPos with
  | error e => rw [he] at h; cases h
  | ok x =>
    rw [he] at h
    exact ⟨x.1, x.2, rfl, of_decide_eq_true h⟩

example : ∃ s' t n l, chatExtract demoChatJosas demoChat = .ok (s', t) ∧ Dict.get? t.verb "가다먹다".toList = some (n, l) ∧ 0 < n := by
  have h : (match chatExtract demoChatJosas demoChat with
    | .ok (_, t) => (match Dict.get? t.verb "가다먹다".toList with | some x => decide (0 < x.1) | none => false)
    | .error _ => false) = true := by decide +kernel
  cases he : chatExtract demoChatJosas demoChat with
  | error e => rw [he] at h; cases h
  | ok x =>
    rw [he] at h
    dsimp only at h
    cases hg : Dict.get? x.2.verb "가다먹다".toList with
    | none => rw [hg] at h; cases h
    | some y => rw [hg] at h; exact ⟨x.1, x.2, y.1, y.2, rfl, hg, of_decide_eq_true h⟩

end Props
