import Verif.Proofs.ChatPos
/-! `ChatPOSExtractor.extract` as a whole. -/
namespace NewsPos
open Py PosSpec

/-- the state after the particles of josa_chat.txt were read -/
def withJosas (josas : List Str) (s : State) : State := { s with josas := josas }

/-- a noun with more than two characters that ends with a recognised word -/
def phrase (f : Found) (w : Str) : Bool :=
  decide (2 < w.length) && (List.range' 1 (w.length - 1)).any (fun i => Dict.has f.josas (w.drop i) || Dict.has f.adjectives (w.drop i) || Dict.has f.verbs (w.drop i))

theorem phrase_iff (f : Found) (w : Str) : phrase f w = true ↔ 2 < w.length ∧ ∃ l r, w = l ++ r ∧ l ≠ [] ∧ r ≠ [] ∧
    (In f.josas r ∨ In f.adjectives r ∨ In f.verbs r) := by
  unfold phrase
  rw [Bool.and_eq_true, decide_eq_true_iff, List.any_eq_true]
  refine and_congr_right fun hl => ?_
  constructor
  · rintro ⟨i, hi, h⟩
    rw [List.mem_range'_1] at hi
    refine ⟨w.take i, w.drop i, (List.take_append_drop i w).symm, ?_, ?_, ?_⟩
    · intro h0; have := congrArg List.length h0; rw [List.length_take, List.length_nil] at this; omega
    · intro h0; have := congrArg List.length h0; rw [List.length_drop, List.length_nil] at this; omega
    · simp only [Bool.or_eq_true, has_iff] at h; exact or_assoc.1 h
  · rintro ⟨l, r, rfl, h1, h2, h3⟩
    have h1' := List.length_pos_iff.2 h1
    have h2' := List.length_pos_iff.2 h2
    refine ⟨l.length, ?_, ?_⟩
    · rw [List.mem_range'_1, List.length_append]; omega
    · rw [List.drop_left]; simp only [Bool.or_eq_true, has_iff]; exact or_assoc.2 h3

structure Chat (s s' : State) (t : WordTags) (f : Found) (ca cv : Str → Option (List (Str × Str))) (R : Dict Str Nat) : Prop where
  facts : Facts s s' f ca cv (lemmatize s'.adjectiveStems s'.eomis) (lemmatize s'.verbStems s'.eomis)
  eojWF : Dict.WF s.eojeols
  rwf : Dict.WF R
  rsub : R = s.eojeols.filter (fun e => Dict.has R e.1)
  rkeys : ∀ w, w ∈ Dict.keys R ↔ Free s w
  eca : ca = chatComp R (knownStem s) (predicator s) s.adjectives
  ecv : cv = chatComp R (knownStem s) (predicator s) s.verbs
  ok : ∀ w, Free s w → compoundOf chatCheck (knownStem s) (predicator s) s.adjectives w = .ok (compOf chatCheck (knownStem s) (predicator s) s.adjectives w) ∧
    compoundOf chatCheck (knownStem s) (predicator s) s.verbs w = .ok (compOf chatCheck (knownStem s) (predicator s) s.verbs w)
  stemsA : s'.adjectiveStems = s.adjectiveStems
  stemsV : s'.verbStems = s.verbStems
  eomis : ∀ e, e ∈ s'.eomis ↔ e ∈ s.eomis ∧ e ∉ findWrongEomi (update s.adjectives (entriesOf R ca)) (entriesOf R ca) ∧
    e ∉ findWrongEomi (update s.verbs (entriesOf R cv)) (entriesOf R cv)
  josas : s'.josas = s.josas
  tE : t.eomi = s'.eomis
  tJ : t.josa = s'.josas
  tAS : t.adjectiveStem = s'.adjectiveStems
  tVS : t.verbStem = s'.verbStems
  tB : t.adverb = s.eojeols.filter (fun e => s.adverbs.contains e.1)
  tA : t.adjective = asPredicator f.adjectives s'.adjectives s'.adjectiveStems s'.eomis
  tV : t.verb = asPredicator f.verbs s'.verbs s'.verbStems s'.eomis
  tI : t.irrecognizable = f.eojeols
  tC : ∀ w, Dict.get? t.confusedNouns w = if Dict.has f.adjectives w || Dict.has f.verbs w || Dict.has f.adverbs w || phrase f w then Dict.get? f.nouns w else none
  tN : t.noun = f.nouns.filter (fun e => !Dict.has t.confusedNouns e.1)

private theorem get?_foldl_update (d e : Dict Str Nat) (he : Dict.WF e) (w : Str) :
    Dict.get? (e.foldl (fun d kv => Dict.set d kv.1 kv.2) d) w = (Dict.get? e w).or (Dict.get? d w) := by
  induction e generalizing d with
  | nil => simp [Dict.get?]
  | cons x e ih =>
    obtain ⟨a, b⟩ := x
    have hx : a ∉ Dict.keys e ∧ Dict.WF e := by
      have := he; unfold Dict.WF at this; simp only [Dict.keys, List.map_cons, List.nodup_cons] at this; exact this
    rw [List.foldl_cons, ih _ hx.2, Dict.get?_set, Dict.get?_cons]
    by_cases h : a = w
    · subst h
      rw [if_pos rfl, if_pos rfl, (Dict.get?_eq_none_iff e a).2 hx.1]; rfl
    · rw [if_neg h, if_neg h]

theorem extract_chat {josas : List Str} {s s' : State} {t : WordTags} (hE : Dict.WF s.eojeols) (h : chatExtract josas s = .ok (s', t)) :
    ∃ f ca cv R, Chat (withJosas josas s) s' t f ca cv R := by
  unfold chatExtract at h
  cases hc : chatCountMatchedPatterns josas s with
  | error e => rw [hc] at h; cases h
  | ok x =>
    obtain ⟨s1, f, conf⟩ := x
    rw [hc] at h
    cases h
    unfold chatCountMatchedPatterns at hc
    obtain ⟨s0, hs0⟩ : ∃ s0, s0 = withJosas josas s := ⟨_, rfl⟩
    have hE0 : Dict.WF s0.eojeols := by rw [hs0]; exact hE
    change (match chatMatchPredicatorCompounds (withJosas josas s) (matchNounAndWord (withJosas josas s) (matchWord (withJosas josas s))) with
      | .error e => _
      | .ok (s, f) => _) = _ at hc
    rw [← hs0] at hc ⊢
    cases hm : chatMatchPredicatorCompounds s0 (matchNounAndWord s0 (matchWord s0)) with
    | error e => rw [hm] at hc; cases hc
    | ok y =>
      obtain ⟨s2, f2⟩ := y
      rw [hm] at hc
      dsimp only at hc
      have i1 := inv_nounAndWord (s := s0) (inv_matchWord hE0)
      have e1 : ∀ w, w ∈ Dict.keys (matchNounAndWord s0 (matchWord s0)).eojeols ↔ Free s0 w := by
        intro w
        rw [nounAndWord_eojeols, mem_keys_removeRecognized, (matchWord_keys s0 w).2.2.2]
        unfold Free; exact and_assoc
      obtain ⟨ca, cv, st, hca, hcv, hsa, hsv, heo, hok⟩ := chatMatch_stage
        (fun w hw ha => (known_false.1 ((e1 w).1 hw).2.1).2.1 ha) (fun w hw ha => (known_false.1 ((e1 w).1 hw).2.1).2.2.1 ha) hm
      have F := facts hE0 st
      obtain ⟨eS, -⟩ := lemmatizing_stage s2 f2
      generalize hf5 : ({ matchSyllableNounAndR (lemmatizingPredicators s2 f2).2 with
        eojeols := removeIrregularWords (lemmatizingPredicators s2 f2).1 (matchSyllableNounAndR (lemmatizingPredicators s2 f2).2).eojeols } : Found) = f5 at *
      generalize hs3 : (lemmatizingPredicators s2 f2).1 = s3 at *
      have q1 : s3.adjectiveStems = s2.adjectiveStems := by rw [eS]
      have q2 : s3.verbStems = s2.verbStems := by rw [eS]
      have q3 : s3.eomis = s2.eomis := by rw [eS]
      have q4 : s3.josas = s2.josas := by rw [eS]
      have a1 : (matchSyllableNounAndR (lemmatizingPredicators s2 f2).2).nouns = f5.nouns := by rw [← hf5]
      have a2 : (matchSyllableNounAndR (lemmatizingPredicators s2 f2).2).adjectives = f5.adjectives := by rw [← hf5]
      have a3 : (matchSyllableNounAndR (lemmatizingPredicators s2 f2).2).verbs = f5.verbs := by rw [← hf5]
      have a4 : (matchSyllableNounAndR (lemmatizingPredicators s2 f2).2).adverbs = f5.adverbs := by rw [← hf5]
      have a5 : (matchSyllableNounAndR (lemmatizingPredicators s2 f2).2).josas = f5.josas := by rw [← hf5]
      have a6 : removeIrregularWords s3 (matchSyllableNounAndR (lemmatizingPredicators s2 f2).2).eojeols = f5.eojeols := by rw [← hf5]
      rw [a1, a2, a3, a4, a5, a6] at hc
      cases hc
      refine ⟨f5, ca, cv, (matchNounAndWord s0 (matchWord s0)).eojeols, ?_⟩
      refine { facts := by rw [q1, q2, q3]; exact F, eojWF := hE0, rwf := sub_wf hE0 i1.sub, rsub := i1.sub, rkeys := e1, eca := hca, ecv := hcv, ok := fun w hw => hok w ((e1 w).2 hw), stemsA := by rw [q1, hsa], stemsV := by rw [q2, hsv], eomis := ?_, josas := by rw [q4]; exact st.josas, tE := rfl, tJ := rfl, tAS := rfl, tVS := rfl, tB := F.adverbs, tA := rfl, tV := rfl, tI := rfl, tC := ?_, tN := rfl }
      · intro e; rw [q3, heo, st.adjectives, st.verbs]
      · intro w
        dsimp only
        have hwfN := F.inv.wfN
        have hph : findNounPhrase f5.nouns (fun r => Dict.has f5.josas r || Dict.has f5.adjectives r || Dict.has f5.verbs r) =
          f5.nouns.filter (fun e => phrase f5 e.1) := rfl
        rw [hph, get?_foldl_update _ _ (hwfN.filter _), Dict.get?_filter hwfN, Dict.get?_filter hwfN]
        cases hg : Dict.get? f5.nouns w with
        | none => simp
        | some n =>
          cases hp : phrase f5 w <;>
            cases ho : (Dict.has f5.adjectives w || Dict.has f5.verbs w || Dict.has f5.adverbs w) <;> simp [Option.filter, hp, ho]

end NewsPos
