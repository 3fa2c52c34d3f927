import Verif.Proofs.NewsPos4
/-! `NewsPOSExtractor.extract` as a whole. -/
namespace NewsPos
open Py PosSpec

/-- the lemma that `_as_predicator` writes -/
def lemmaFor (d : Dict Str Entry) (stems eomis : List Str) (w : Str) : Option (List (Str × Str)) :=
  match Dict.get? d w with
  | some x => some x.2
  | none => lemmatize stems eomis w

theorem asPredicator_eq {c : Dict Str Nat} (h : Dict.WF c) (d : Dict Str Entry) (stems eomis : List Str) :
    asPredicator c d stems eomis = c.map (fun e => (e.1, (e.2, lemmaFor d stems eomis e.1))) := by
  have h1 : asPredicator c d stems eomis = (c.map (fun e => (e.1, (e.2, lemmaFor d stems eomis e.1)))).foldl (fun d e => Dict.set d e.1 e.2) [] := by
    rw [List.foldl_map]; rfl
  rw [h1, Dict.foldl_set_append]
  · rfl
  · simp only [List.nil_append, Dict.WF, Dict.keys, List.map_map]
    exact h

theorem keys_asPredicator {c : Dict Str Nat} (h : Dict.WF c) (d : Dict Str Entry) (stems eomis : List Str) :
    Dict.keys (asPredicator c d stems eomis) = Dict.keys c := by
  rw [asPredicator_eq h]; simp [Dict.keys]

theorem get?_asPredicator {c : Dict Str Nat} (h : Dict.WF c) (d : Dict Str Entry) (stems eomis : List Str) (w : Str) :
    Dict.get? (asPredicator c d stems eomis) w = (Dict.get? c w).map (fun n => (n, lemmaFor d stems eomis w)) := by
  rw [asPredicator_eq h]
  clear h
  induction c with
  | nil => rfl
  | cons e c ih =>
    obtain ⟨a, b⟩ := e
    simp only [List.map_cons, Dict.get?_cons, ih]
    split
    · rename_i h; subst h; rfl
    · rfl

structure News (s s' : State) (t : WordTags) (f : Found) (ca cv : Str → Option (List (Str × Str))) : Prop where
  facts : Facts s s' f ca cv (lemmatize s'.adjectiveStems s'.eomis) (lemmatize s'.verbStems s'.eomis)
  eca : ca = compOf checkSuffixPrefix (knownStem s) (predicator s) s.adjectives
  ecv : cv = compOf checkSuffixPrefix (fun w => s.verbStems.contains w || s'.adjectiveStems.contains w) (predicator s) s.verbs
  stemsA : ∃ R : Dict Str Nat, Dict.WF R ∧ (∀ w, w ∈ Dict.keys R ↔ Free s w) ∧ s'.adjectiveStems = s.adjectiveStems ++ stemsOf (entriesOf R ca) ∧
    s'.verbStems = s.verbStems ++ stemsOf (entriesOf R cv)
  ok : ∀ w, Free s w → compoundOf checkSuffixPrefix (knownStem s) (predicator s) s.adjectives w = .ok (ca w) ∧
    compoundOf checkSuffixPrefix (fun w => s.verbStems.contains w || s'.adjectiveStems.contains w) (predicator s) s.verbs w = .ok (cv w)
  eomis : s'.eomis = s.eomis
  josas : s'.josas = s.josas
  tE : t.eomi = s'.eomis
  tJ : t.josa = s'.josas
  tAS : t.adjectiveStem = s'.adjectiveStems
  tVS : t.verbStem = s'.verbStems
  tB : t.adverb = s.eojeols.filter (fun e => s.adverbs.contains e.1)
  tA : t.adjective = asPredicator f.adjectives s'.adjectives s'.adjectiveStems s'.eomis
  tV : t.verb = asPredicator f.verbs s'.verbs s'.verbStems s'.eomis
  tI : t.irrecognizable = removeRecognized f.eojeols (fun w => (nounOf f.nouns (suffixOf f) w).isSome)
  tC : t.confusedNouns = (cumulate f.nouns (cumulate [] (credit f.eojeols (nounOf f.nouns (suffixOf f))))).filter
    (fun e => Dict.has f.adjectives e.1 || Dict.has f.verbs e.1 || Dict.has f.adverbs e.1)
  tN : t.noun = (cumulate f.nouns (cumulate [] (credit f.eojeols (nounOf f.nouns (suffixOf f))))).filter (fun e => !Dict.has t.confusedNouns e.1)

theorem extract_news {s s' : State} {t : WordTags} (hE : Dict.WF s.eojeols) (h : extract s = .ok (s', t)) : ∃ f ca cv, News s s' t f ca cv := by
  unfold extract at h
  cases hc : countMatchedPatterns s with
  | error e => rw [hc] at h; cases h
  | ok x =>
    obtain ⟨s1, f, conf⟩ := x
    rw [hc] at h
    cases h
    unfold countMatchedPatterns at hc
    cases hm : matchPredicatorCompounds s (matchNounAndWord s (matchWord s)) with
    | error e => rw [hm] at hc; cases hc
    | ok y =>
      obtain ⟨s2, f2⟩ := y
      rw [hm] at hc
      dsimp only at hc
      obtain ⟨ca, cv, st, hca, hsa, hcv, hsv, heo, hok⟩ := matchPredicatorCompounds_stage hm
      have F := facts hE st
      obtain ⟨eS, -⟩ := lemmatizing_stage s2 f2
      have i1 := inv_nounAndWord (s := s) (inv_matchWord hE)
      have e1 : ∀ w, w ∈ Dict.keys (matchNounAndWord s (matchWord s)).eojeols ↔ Free s w := by
        intro w
        rw [nounAndWord_eojeols, mem_keys_removeRecognized, (matchWord_keys s w).2.2.2]
        unfold Free; exact and_assoc
      generalize hf5 : ({ matchSyllableNounAndR (lemmatizingPredicators s2 f2).2 with
        eojeols := removeIrregularWords (lemmatizingPredicators s2 f2).1 (matchSyllableNounAndR (lemmatizingPredicators s2 f2).2).eojeols } : Found) = f5 at *
      generalize hs3 : (lemmatizingPredicators s2 f2).1 = s3 at *
      cases hcn : matchCompoundNouns f5 with
      | error e => rw [hcn] at hc; cases hc
      | ok f6 =>
        rw [hcn] at hc
        cases hc
        have hf6 := compound_stage hcn
        have q1 : s'.adjectiveStems = s2.adjectiveStems := by rw [eS]
        have q2 : s'.verbStems = s2.verbStems := by rw [eS]
        have q3 : s'.eomis = s2.eomis := by rw [eS]
        have q4 : s'.josas = s2.josas := by rw [eS]
        refine ⟨f5, ca, cv, ?_⟩
        subst hf6
        refine ⟨by rw [q1, q2, q3]; exact F, hca, by rw [q1]; exact hcv, ⟨_, sub_wf hE i1.sub, e1, by rw [q1]; exact hsa, by rw [q2]; exact hsv⟩,
          fun w hw => by rw [q1]; exact hok w ((e1 w).2 hw), by rw [q3]; exact heo, by rw [q4]; exact st.josas, rfl, rfl, rfl, rfl, ?_, rfl, rfl, rfl, rfl, rfl⟩
        exact F.adverbs

end NewsPos
