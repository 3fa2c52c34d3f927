import Verif.Props.C69
import Verif.Proofs.NewsPos6
/-! C71: where the words that NewsPOSExtractor.extract returns come from. -/
namespace Props
open Py PosSpec NewsPos

private theorem pred_iff (s : State) (x : Str) : predicator s x = true ↔ In s.adjectives x ∨ In s.verbs x := by
  unfold predicator; rw [Bool.or_eq_true, has_iff, has_iff]

private theorem noneOf (v a : List Str) (x : Str) : (v.contains x || a.contains x) = false ↔ x ∉ a ∧ x ∉ v := by
  rw [Bool.or_eq_false_iff, ← Bool.not_eq_true, ← Bool.not_eq_true, List.contains_iff_mem, List.contains_iff_mem]; exact and_comm

/-- a stem that is not known to the extractor -/
def NewStem (s : State) (x : Str) : Prop := x ∉ s.adjectiveStems ∧ x ∉ s.verbStems

/-- C71 (a): every returned adjective carries a list of lemmas (the fallback for words without a lemma is never used): those it had before; or,
    if it is a newly found word, those of a compound of two known predicators, or lemmas of known stem and ending that conjugate to it -/
theorem C71_adjective {s s' : State} {t : WordTags} (hE : WordLike s.eojeols) (h : extract s = .ok (s', t)) (w : Str) (n : Nat)
    (l : Option (List (Str × Str))) (hw : Dict.get? t.adjective w = some (n, l)) :
    ∃ ls, l = some ls ∧ ((∃ m, Dict.get? s.adjectives w = some (m, ls)) ∨
      ¬ Known s w ∧ (CompoundLemmas s (NewStem s) s.adjectives w ls ∨ KnownLemmas t.adjectiveStem t.eomi w ls)) := by
  obtain ⟨f, ca, cv, N⟩ := extract_news hE.1 h
  rw [N.tA, get?_asPredicator N.facts.inv.wfA] at hw
  cases hg : Dict.get? f.adjectives w with
  | none => rw [hg] at hw; cases hw
  | some m =>
    rw [hg] at hw
    cases hw
    have hk : w ∈ Dict.keys f.adjectives := by rw [← Dict.isSome_get?_iff, hg]; rfl
    have hcases := (N.facts.keysA w).1 hk
    have hin : In s.eojeols w := by rcases hcases with h1 | h1; exacts [h1.1, h1.1.1]
    have he := N.facts.entryA w hin
    obtain ⟨k, hk⟩ := get?_of_has hin
    unfold lemmaFor
    rcases hcases with ⟨_, h1⟩ | ⟨h1, h2⟩
    · rw [if_pos h1] at he
      obtain ⟨x, hx⟩ := get?_of_has h1
      rw [he, hx]
      exact ⟨x.2, rfl, Or.inl ⟨x.1, rfl⟩⟩
    · have hf := free_iff.1 h1
      have hna : ¬ In s.adjectives w := fun h' => hf.2.1 (Or.inr (Or.inl h'))
      rw [if_neg hna, if_pos h1, hk] at he
      rw [N.tAS, N.tE]
      cases hca : ca w with
      | some ls =>
        rw [hca] at he
        simp only [Option.isSome_some, Bool.true_or, if_true, Option.map_some, Option.bind_some] at he
        rw [he]
        refine ⟨ls, rfl, Or.inr ⟨hf.2.1, Or.inl ?_⟩⟩
        rw [N.eca] at hca
        obtain ⟨a, b, e, h3, h4, h5, h6⟩ := compOf_some (pred_iff s) hca
        refine ⟨a, b, e, h3, h4, h5, fun q => (h6 q).trans ?_⟩
        have : ∀ x, knownStem s x = false ↔ NewStem s x := by
          intro x; exact noneOf _ _ x
        simp only [this]
      | none =>
        rw [hca] at he h2
        rcases h2 with h2 | ⟨_, h2, h3⟩
        · cases h2
        · rw [h2] at he
          obtain ⟨ls, hls⟩ := Option.isSome_iff_exists.1 h3
          rw [hls] at he
          simp only [Option.isSome_none, Bool.or_self, Bool.false_eq_true, if_false, Option.map_some, Option.bind_some] at he
          rw [he]
          exact ⟨ls, rfl, Or.inr ⟨hf.2.1, Or.inr (lemmatize_some hls)⟩⟩

/-- C71 (b): the same for verbs; the stems of the new adjective compounds already count as known -/
theorem C71_verb {s s' : State} {t : WordTags} (hE : WordLike s.eojeols) (h : extract s = .ok (s', t)) (w : Str) (n : Nat)
    (l : Option (List (Str × Str))) (hw : Dict.get? t.verb w = some (n, l)) :
    ∃ ls, l = some ls ∧ ((∃ m, Dict.get? s.verbs w = some (m, ls)) ∨
      ¬ Known s w ∧ (CompoundLemmas s (fun x => x ∉ t.adjectiveStem ∧ x ∉ s.verbStems) s.verbs w ls ∨ KnownLemmas t.verbStem t.eomi w ls)) := by
  obtain ⟨f, ca, cv, N⟩ := extract_news hE.1 h
  rw [N.tV, get?_asPredicator N.facts.inv.wfV] at hw
  cases hg : Dict.get? f.verbs w with
  | none => rw [hg] at hw; cases hw
  | some m =>
    rw [hg] at hw
    cases hw
    have hk : w ∈ Dict.keys f.verbs := by rw [← Dict.isSome_get?_iff, hg]; rfl
    have hcases := (N.facts.keysV w).1 hk
    have hin : In s.eojeols w := by rcases hcases with h1 | h1; exacts [h1.1, h1.1.1]
    have he := N.facts.entryV w hin
    obtain ⟨k, hk⟩ := get?_of_has hin
    unfold lemmaFor
    rcases hcases with ⟨_, h1⟩ | ⟨h1, h2⟩
    · rw [if_pos h1] at he
      obtain ⟨x, hx⟩ := get?_of_has h1
      rw [he, hx]
      exact ⟨x.2, rfl, Or.inl ⟨x.1, rfl⟩⟩
    · have hf := free_iff.1 h1
      have hna : ¬ In s.verbs w := fun h' => hf.2.1 (Or.inr (Or.inr (Or.inl h')))
      rw [if_neg hna, if_pos h1, hk] at he
      rw [N.tVS, N.tE, N.tAS]
      cases hcv : cv w with
      | some ls =>
        rw [hcv] at he
        simp only [Option.isSome_some, Bool.or_true, if_true, Option.map_some, Option.bind_some] at he
        rw [he]
        refine ⟨ls, rfl, Or.inr ⟨hf.2.1, Or.inl ?_⟩⟩
        rw [N.ecv] at hcv
        obtain ⟨a, b, e, h3, h4, h5, h6⟩ := compOf_some (pred_iff s) hcv
        refine ⟨a, b, e, h3, h4, h5, fun q => (h6 q).trans ?_⟩
        have : ∀ x, (s.verbStems.contains x || s'.adjectiveStems.contains x) = false ↔ x ∉ s'.adjectiveStems ∧ x ∉ s.verbStems := by
          exact fun x => noneOf _ _ x
        simp only [this]
      | none =>
        rw [hcv] at he h2
        rcases h2 with h2 | ⟨h2, _, h3⟩
        · cases h2
        · rw [h2] at he
          obtain ⟨ls, hls⟩ := Option.isSome_iff_exists.1 h3
          rw [hls] at he
          simp only [Option.isSome_none, Bool.or_self, Bool.false_eq_true, if_false, Option.map_some, Option.bind_some] at he
          rw [he]
          exact ⟨ls, rfl, Or.inr ⟨hf.2.1, Or.inr (lemmatize_some hls)⟩⟩

/-- C71 (c): a word reported as irrecognizable has no lemma of known stem and ending in any split, and no reading as a compound of known predicators
    with a new stem -/
theorem C71_irrecognizable {s s' : State} {t : WordTags} (hE : WordLike s.eojeols) (h : extract s = .ok (s', t)) (w : Str) (hw : In t.irrecognizable w) :
    (∀ l r out q, w = l ++ r → l ≠ [] → Lemma.lemmaCandidate l r = .ok out → q ∈ out → q.2 ∈ t.eomi → q.1 ∉ t.adjectiveStem ∧ q.1 ∉ t.verbStem) ∧
    (¬ ∃ ls, CompoundLemmas s (NewStem s) s.adjectives w ls) ∧
    (¬ ∃ ls, CompoundLemmas s (fun x => x ∉ t.adjectiveStem ∧ x ∉ s.verbStems) s.verbs w ls) := by
  obtain ⟨f, ca, cv, N⟩ := extract_news hE.1 h
  rw [N.tI, In, mem_keys_removeRecognized] at hw
  obtain ⟨hf, hA, hV, _, _⟩ := (N.facts.eoj w).1 hw.1
  rw [N.facts.keysA] at hA
  rw [N.facts.keysV] at hV
  have ca0 : ca w = none := by
    cases hc : ca w with
    | none => rfl
    | some x => exact absurd (Or.inr ⟨hf, Or.inl (by rw [hc]; rfl)⟩) hA
  have cv0 : cv w = none := by
    cases hc : cv w with
    | none => rfl
    | some x => exact absurd (Or.inr ⟨hf, Or.inl (by rw [hc]; rfl)⟩) hV
  obtain ⟨okA, okV⟩ := N.ok w hf
  rw [ca0] at okA
  rw [cv0] at okV
  refine ⟨?_, ?_, ?_⟩
  · intro l r out q h1 h2 h3 h4 h5
    rw [N.tE] at h5
    rw [N.tAS, N.tVS]
    have lA : lemmatize s'.adjectiveStems s'.eomis w = none := by
      cases hc : lemmatize s'.adjectiveStems s'.eomis w with
      | none => rfl
      | some x => exact absurd (Or.inr ⟨hf, Or.inr ⟨by rw [ca0]; rfl, by rw [cv0]; rfl, by rw [hc]; rfl⟩⟩) hA
    have lV : lemmatize s'.verbStems s'.eomis w = none := by
      cases hc : lemmatize s'.verbStems s'.eomis w with
      | none => rfl
      | some x => exact absurd (Or.inr ⟨hf, Or.inr ⟨by rw [ca0]; rfl, by rw [cv0]; rfl, by rw [hc]; rfl⟩⟩) hV
    exact ⟨fun hs => lemmatize_none lA l r h1 h2 out h3 q h4 ⟨hs, h5⟩, fun hs => lemmatize_none lV l r h1 h2 out h3 q h4 ⟨hs, h5⟩⟩
  · rintro ⟨ls, a, b, e, h1, h2, h3, h4⟩
    obtain ⟨q, hq⟩ := List.exists_mem_of_ne_nil ls h3
    obtain ⟨stem, h5, h6, h7, h8⟩ := (h4 q).1 hq
    have := compOf_none (pred_iff s) okA a b e h1 h2 stem q.2 h5 (by rw [← h6]; exact h7)
    rw [← h6] at this
    unfold knownStem at this
    simp only [Bool.or_eq_true, List.contains_iff_mem] at this
    rcases this with h9 | h9
    · exact h8.2 h9
    · exact h8.1 h9
  · rintro ⟨ls, a, b, e, h1, h2, h3, h4⟩
    obtain ⟨q, hq⟩ := List.exists_mem_of_ne_nil ls h3
    obtain ⟨stem, h5, h6, h7, h8⟩ := (h4 q).1 hq
    have := compOf_none (pred_iff s) okV a b e h1 h2 stem q.2 h5 (by rw [← h6]; exact h7)
    rw [← h6] at this
    simp only [Bool.or_eq_true, List.contains_iff_mem] at this
    rw [N.tAS] at h8
    rcases this with h9 | h9
    · exact h8.2 h9
    · exact h8.1 h9

private theorem mem_stems {R : Dict Str Nat} (hR : Dict.WF R) (comp : Str → Option (List (Str × Str))) (x : Str) :
    x ∈ stemsOf (entriesOf R comp) ↔ ∃ w ls e, In R w ∧ comp w = some ls ∧ (x, e) ∈ ls := by
  unfold stemsOf
  rw [List.mem_flatMap]
  constructor
  · rintro ⟨⟨w, n, ls⟩, hm, hx⟩
    obtain ⟨q, hq, rfl⟩ := List.mem_map.1 hx
    have := (Dict.mem_iff_get? (wf_entries hR comp)).1 hm
    rw [get?_entries hR] at this
    cases hn : Dict.get? R w with
    | none => rw [hn] at this; cases this
    | some k =>
      rw [hn] at this
      cases hc : comp w with
      | none => rw [hc] at this; cases this
      | some ls' =>
        rw [hc] at this
        cases this
        exact ⟨w, ls, q.2, by rw [In, ← Dict.isSome_get?_iff, hn]; rfl, hc, hq⟩
  · rintro ⟨w, ls, e, h1, h2, h3⟩
    obtain ⟨k, hk⟩ := get?_of_has h1
    refine ⟨(w, k, ls), (Dict.mem_iff_get? (wf_entries hR comp)).2 ?_, List.mem_map.2 ⟨(x, e), h3, rfl⟩⟩
    rw [get?_entries hR, hk, h2]; rfl

/-- C71 (d): the endings and particles are returned unchanged; the returned stems are the known ones and the stems of the lemmas of the newly
    found adjectives (verbs) -/
theorem C71_stems {s s' : State} {t : WordTags} (hE : WordLike s.eojeols) (h : extract s = .ok (s', t)) :
    t.eomi = s.eomis ∧ t.josa = s.josas ∧
    (∀ x, x ∈ t.adjectiveStem ↔ x ∈ s.adjectiveStems ∨ ∃ w n ls e, Dict.get? t.adjective w = some (n, some ls) ∧ ¬ In s.adjectives w ∧ (x, e) ∈ ls) ∧
    (∀ x, x ∈ t.verbStem ↔ x ∈ s.verbStems ∨ ∃ w n ls e, Dict.get? t.verb w = some (n, some ls) ∧ ¬ In s.verbs w ∧ (x, e) ∈ ls) := by
  obtain ⟨f, ca, cv, N⟩ := extract_news hE.1 h
  obtain ⟨R, hR, hRk, hsA, hsV⟩ := N.stemsA
  refine ⟨by rw [N.tE, N.eomis], by rw [N.tJ, N.josas], ?_, ?_⟩
  · intro x
    constructor
    · intro hx
      rw [N.tAS, hsA, List.mem_append, mem_stems hR] at hx
      rcases hx with hx | ⟨w, ls, e, h1, h2, h3⟩
      · exact Or.inl hx
      · right
        have hf := (hRk w).1 h1
        have hk : w ∈ Dict.keys f.adjectives := (N.facts.keysA w).2 (Or.inr ⟨hf, Or.inl (by rw [h2]; rfl)⟩)
        obtain ⟨n, hn⟩ := get?_of_has hk
        have hna : ¬ In s.adjectives w := fun h' => (free_iff.1 hf).2.1 (Or.inr (Or.inl h'))
        refine ⟨w, n, ls, e, ?_, hna, h3⟩
        rw [N.tA, get?_asPredicator N.facts.inv.wfA, hn]
        obtain ⟨k, hk⟩ := get?_of_has hf.1
        have he := N.facts.entryA w hf.1
        rw [if_neg hna, if_pos hf, hk, h2] at he
        unfold lemmaFor
        rw [he]; rfl
    · rintro (hx | ⟨w, n, ls, e, h1, h2, h3⟩)
      · rw [N.tAS, hsA]; exact List.mem_append_left _ hx
      · obtain ⟨ls', hl, hor⟩ := C71_adjective hE h w n _ h1
        cases hl
        rcases hor with ⟨m, hm⟩ | ⟨_, hor⟩
        · exact absurd (by rw [In, ← Dict.isSome_get?_iff, hm]; rfl) h2
        · rcases hor with hc | hc
          · -- a compound: its stems were added
            have hk : w ∈ Dict.keys f.adjectives := by
              rw [← In, ← (pos_words N w).1, In, ← Dict.isSome_get?_iff, h1]; rfl
            rcases (N.facts.keysA w).1 hk with h4 | ⟨hf, h4⟩
            · exact absurd h4.2 h2
            · cases hca : ca w with
              | some ls2 =>
                rw [N.tAS, hsA, List.mem_append, mem_stems hR]
                have he := N.facts.entryA w hf.1
                obtain ⟨k, hk'⟩ := get?_of_has hf.1
                rw [if_neg h2, if_pos hf, hk', hca] at he
                have h5 := h1
                rw [N.tA, get?_asPredicator N.facts.inv.wfA] at h5
                unfold lemmaFor at h5
                rw [he] at h5
                obtain ⟨j, _, hj⟩ := Option.map_eq_some_iff.1 h5
                cases hj
                exact Or.inr ⟨w, _, e, (hRk w).2 hf, hca, h3⟩
              | none =>
                exfalso
                obtain ⟨a, b, en, c1, c2, c3, c4⟩ := hc
                obtain ⟨q, hq⟩ := List.exists_mem_of_ne_nil ls c3
                obtain ⟨stem, c5, c6, c7, c8⟩ := (c4 q).1 hq
                have okA := (N.ok w hf).1
                rw [hca] at okA
                have := compOf_none (pred_iff s) okA a b en c1 c2 stem q.2 c5 (by rw [← c6]; exact c7)
                rw [← c6] at this
                unfold knownStem at this
                simp only [Bool.or_eq_true, List.contains_iff_mem] at this
                rcases this with h9 | h9
                · exact c8.2 h9
                · exact c8.1 h9
          · exact (hc.2.1 (x, e) h3).1
  · intro x
    constructor
    · intro hx
      rw [N.tVS, hsV, List.mem_append, mem_stems hR] at hx
      rcases hx with hx | ⟨w, ls, e, h1, h2, h3⟩
      · exact Or.inl hx
      · right
        have hf := (hRk w).1 h1
        have hk : w ∈ Dict.keys f.verbs := (N.facts.keysV w).2 (Or.inr ⟨hf, Or.inl (by rw [h2]; rfl)⟩)
        obtain ⟨n, hn⟩ := get?_of_has hk
        have hna : ¬ In s.verbs w := fun h' => (free_iff.1 hf).2.1 (Or.inr (Or.inr (Or.inl h')))
        refine ⟨w, n, ls, e, ?_, hna, h3⟩
        rw [N.tV, get?_asPredicator N.facts.inv.wfV, hn]
        obtain ⟨k, hk⟩ := get?_of_has hf.1
        have he := N.facts.entryV w hf.1
        rw [if_neg hna, if_pos hf, hk, h2] at he
        unfold lemmaFor
        rw [he]
        simp
    · rintro (hx | ⟨w, n, ls, e, h1, h2, h3⟩)
      · rw [N.tVS, hsV]; exact List.mem_append_left _ hx
      · obtain ⟨ls', hl, hor⟩ := C71_verb hE h w n _ h1
        cases hl
        rcases hor with ⟨m, hm⟩ | ⟨_, hor⟩
        · exact absurd (by rw [In, ← Dict.isSome_get?_iff, hm]; rfl) h2
        · rcases hor with hc | hc
          · have hk : w ∈ Dict.keys f.verbs := by
              rw [← In, ← (pos_words N w).2.1, In, ← Dict.isSome_get?_iff, h1]; rfl
            rcases (N.facts.keysV w).1 hk with h4 | ⟨hf, h4⟩
            · exact absurd h4.2 h2
            · cases hcv : cv w with
              | some ls2 =>
                rw [N.tVS, hsV, List.mem_append, mem_stems hR]
                have he := N.facts.entryV w hf.1
                obtain ⟨k, hk'⟩ := get?_of_has hf.1
                rw [if_neg h2, if_pos hf, hk', hcv] at he
                simp only [Option.isSome_some, Bool.or_true, if_true, Option.map_some, Option.bind_some] at he
                have h5 := h1
                rw [N.tV, get?_asPredicator N.facts.inv.wfV] at h5
                unfold lemmaFor at h5
                rw [he] at h5
                obtain ⟨j, _, hj⟩ := Option.map_eq_some_iff.1 h5
                cases hj
                exact Or.inr ⟨w, _, e, (hRk w).2 hf, hcv, h3⟩
              | none =>
                exfalso
                obtain ⟨a, b, en, c1, c2, c3, c4⟩ := hc
                obtain ⟨q, hq⟩ := List.exists_mem_of_ne_nil ls c3
                obtain ⟨stem, c5, c6, c7, c8⟩ := (c4 q).1 hq
                have okV := (N.ok w hf).2
                rw [hcv] at okV
                have := compOf_none (pred_iff s) okV a b en c1 c2 stem q.2 c5 (by rw [← c6]; exact c7)
                rw [← c6] at this
                simp only [Bool.or_eq_true, List.contains_iff_mem] at this
                rw [N.tAS] at c8
                rcases this with h9 | h9
                · exact c8.2 h9
                · exact c8.1 h9
          · exact (hc.2.1 (x, e) h3).1

/-- C71 (e): the returned nouns (confused or not): every noun that occurs alone as an eojeol is returned, and nothing else than those, single characters
    in front of a recognised word, and compounds of at least two of the former. So a noun that never stands alone is not returned (finding). -/
theorem C71_noun {s s' : State} {t : WordTags} (hE : WordLike s.eojeols) (h : extract s = .ok (s', t)) (w : Str) :
    (Standing s w → In t.noun w ∨ In t.confusedNouns w) ∧
    (In t.noun w ∨ In t.confusedNouns w → Standing s w ∨
      (∃ c r, w = [c] ∧ In s.eojeols (c :: r) ∧ ¬ Known s (c :: r) ∧ (In t.adjective r ∨ In t.verb r ∨ AttestedJosa s r)) ∨
      ∃ (parts : List Str) (rest : Str), w = parts.flatten ∧ 2 ≤ parts.length ∧ (∀ p ∈ parts, Standing s p ∧ 2 ≤ p.length) ∧ In s.eojeols (w ++ rest) ∧
        (rest = [] ∨ In t.noun rest ∨ In t.confusedNouns rest ∨ In t.adjective rest ∨ In t.verb rest ∨ AttestedJosa s rest)) := by
  obtain ⟨f, ca, cv, N⟩ := extract_news hE.1 h
  constructor
  · intro hs
    exact (pos_words N w).2.2.2.2 (Or.inl ((N.facts.keysN w).2 (Or.inl hs)))
  · intro hw
    rcases (pos_words N w).2.2.2.1 hw with hn | ⟨e, he, hn⟩
    · rcases (N.facts.keysN w).1 hn with h1 | ⟨e, hf, _, _, hsyl, rfl⟩
      · exact Or.inl h1
      · right; left
        obtain ⟨hin, hkn, _⟩ := free_iff.1 hf
        cases e with
        | nil => exact absurd rfl (hE.2 _ hin).1
        | cons c r =>
          refine ⟨c, r, rfl, hin, hkn, ?_⟩
          unfold sylRead at hsyl
          simp only [Bool.or_eq_true, has_iff, List.drop_one, List.tail_cons] at hsyl
          obtain ⟨rA, rV, _, _⟩ := pos_words N r
          rw [rA, rV, ← attested_iff, ← N.facts.keysJ]
          exact or_assoc.1 hsyl
    · right; right
      have hf := ((N.facts.eoj e).1 he).1
      obtain ⟨hne, hsp⟩ := hE.2 e hf.1
      obtain ⟨parts, rest, h1, rfl, h3, h4, h5⟩ := nounOf_some hne hsp hn
      have hparts : ∀ p ∈ parts, Standing s p ∧ 2 ≤ p.length := by
        intro p hp
        obtain ⟨h6, h7⟩ := h4 p hp
        rcases (N.facts.keysN p).1 h6 with h8 | ⟨e, _, _, _, _, rfl⟩
        · exact ⟨h8, h7⟩
        · simp at h7
      have hlen : 2 ≤ parts.length := by
        rcases h5 with rfl | h5
        · cases parts with
          | nil => exact absurd rfl h3
          | cons p ps =>
            cases ps with
            | nil =>
              exfalso
              simp only [List.flatten_cons, List.flatten_nil, List.append_nil] at h1
              subst h1
              exact (free_iff.1 hf).2.1 (Or.inl (hparts e (by simp)).1.1)
            | cons q qs => simp
        · exact h5.1
      refine ⟨parts, rest, rfl, hlen, hparts, by rw [← h1]; exact hf.1, ?_⟩
      rcases h5 with h5 | ⟨_, h5⟩
      · exact Or.inl h5
      · right
        obtain ⟨lA, lV, _, lN⟩ := pos_words N rest
        unfold suffixOf at h5
        simp only [Bool.or_eq_true, has_iff] at h5
        rw [lA, lV, ← attested_iff, ← N.facts.keysJ]
        rcases h5 with ((h5 | h5) | h5) | h5
        · rcases lN.2 (Or.inl h5) with h6 | h6
          · exact Or.inl h6
          · exact Or.inr (Or.inl h6)
        · exact Or.inr (Or.inr (Or.inl h5))
        · exact Or.inr (Or.inr (Or.inr (Or.inl h5)))
        · exact Or.inr (Or.inr (Or.inr (Or.inr h5)))

end Props
