import Verif.Proofs.Predicator
import Verif.Proofs.Hangle
import Verif.Props.C21_C23
import Verif.Props.C24_C28
import Verif.Props.C50
/-! C56: what `PredicatorExtractor.train` and `extract` report. -/
set_option linter.unusedSimpArgs false
namespace Props
open Py Spec

/-- the words `extract` looks at: those it is given, or, without any, the trained ones with a count above the bound that are
    written in complete syllables -/
def PredCands (s : Pred.State) (given : List (Str × Int)) (m : Int) (cands : List (Str × Int)) : Prop :=
  (given ≠ [] ∧ cands = given) ∨
  (given = [] ∧ ∃ c, s.counter = some c ∧ cands = c.counter.filter (fun kv => decide (m < kv.2 ∧ ∀ ch ∈ kv.1, Syllable ch)))

/-- the readings of `w` that are not taken back -/
def predKept (nouns : List Str) (rd : Str → List (Str × Str)) (words : List Str) (w : Str) (ls : List (Str × Str)) : Prop :=
  ∀ p, p ∈ ls ↔ p ∈ rd w ∧ ¬ TakenBack nouns p.2 (occurrences rd words p.2) w

/-- no two readings of `w` with the same ending are taken back -/
def TakenOnce (nouns : List Str) (rd : Str → List (Str × Str)) (words : List Str) (w : Str) : Prop :=
  ∀ q ∈ rd w, TakenBack nouns q.2 (occurrences rd words q.2) w → (rd w).countP (fun l => decide (l.2 = q.2)) = 1

/-- what `extract` returns, when `verb` are the stems taken for those of verbs -/
structure PredResultBy (verb : Str → Prop) (s s' : Pred.State) (cands : List (Str × Int)) (adj vb : Dict Str Pred.Entry) (rd : Str → List (Str × Str)) : Prop where
  readings : ∀ w ∈ Dict.keys cands, Readings s.nouns s.josas s.stems s.eomis w (rd w)
  /-- only candidates are reported -/
  other : ∀ w, w ∉ Dict.keys cands → Dict.get? adj w = none ∧ Dict.get? vb w = none
  /-- a word is either not reported at all or with all readings not taken back, verb stems among the verbs, the others among the adjectives -/
  word : ∀ w c, (w, c) ∈ cands → (Dict.get? adj w = none ∧ Dict.get? vb w = none) ∨
    ∃ as vs, predKept s.nouns rd (Dict.keys cands) w (as ++ vs) ∧ (as ++ vs).Nodup ∧ (∀ p ∈ as, ¬ verb p.1) ∧ (∀ p ∈ vs, verb p.1) ∧
      Dict.get? adj w = (if as = [] then none else some (c, as)) ∧ Dict.get? vb w = (if vs = [] then none else some (c, vs))
  /-- a word with a reading that is not taken back is reported if there are two such readings, or if no two readings with the same ending are taken back -/
  complete : ∀ w ∈ Dict.keys cands, (∃ p ∈ rd w, ¬ TakenBack s.nouns p.2 (occurrences rd (Dict.keys cands) p.2) w ∧
      ((∃ q ∈ rd w, q ≠ p ∧ ¬ TakenBack s.nouns q.2 (occurrences rd (Dict.keys cands) q.2) w) ∨ TakenOnce s.nouns rd (Dict.keys cands) w)) →
    Dict.get? adj w ≠ none ∨ Dict.get? vb w ≠ none
  /-- a single reading that is not taken back is lost as well if readings are taken back and each of them shares its ending with another one (with a mixture it
      depends on the order in which the endings were met) -/
  lost : ∀ w ∈ Dict.keys cands, ∀ p ∈ rd w, (∀ q ∈ rd w, q ≠ p → TakenBack s.nouns q.2 (occurrences rd (Dict.keys cands) q.2) w) →
    (∃ q ∈ rd w, TakenBack s.nouns q.2 (occurrences rd (Dict.keys cands) q.2) w) →
    (∀ q ∈ rd w, TakenBack s.nouns q.2 (occurrences rd (Dict.keys cands) q.2) w → 2 ≤ (rd w).countP (fun l => decide (l.2 = q.2))) →
    Dict.get? adj w = none ∧ Dict.get? vb w = none
  /-- endings that were given up are forgotten -/
  eomis : ∀ e, e ∈ s'.eomis ↔ e ∈ s.eomis ∧ ¬ GivenUp s.nouns e (occurrences rd (Dict.keys cands) e)
  /-- the coverage counts the words with a reading, whether or not it is taken back -/
  num : s'.numCovered = (cands.filter (fun kv => decide (rd kv.1 ≠ []))).length
  count : s'.countCovered = ((cands.filter (fun kv => decide (rd kv.1 ≠ []))).map (·.2)).sum
  /-- nothing else changes -/
  rest : s'.nouns = s.nouns ∧ s'.josas = s.josas ∧ s'.stems = s.stems ∧ s'.adjectives = s.adjectives ∧ s'.verbs = s.verbs ∧ s'.counter = s.counter

/-- what `extract` returns when the stems are those of the two dictionaries -/
abbrev PredResult (s s' : Pred.State) (cands : List (Str × Int)) (adj vb : Dict Str Pred.Entry) (rd : Str → List (Str × Str)) : Prop :=
  PredResultBy (· ∈ s.verbs) s s' cands adj vb rd

/-- the words counted as predicators when stems that are in no dictionary are told apart: every reported word, and otherwise only candidates with readings, all
    taken back, two of them with the same ending -/
def PredWords (nouns : List Str) (cands : List (Str × Int)) (adj vb : Dict Str Pred.Entry) (rd : Str → List (Str × Str)) (known : Str → Prop) : Prop :=
  (∀ w, Dict.get? adj w ≠ none ∨ Dict.get? vb w ≠ none → known w) ∧
  (∀ w, known w → w ∈ Dict.keys cands ∧ rd w ≠ []) ∧
  (∀ w, known w → TakenOnce nouns rd (Dict.keys cands) w ∨ (∃ p ∈ rd w, ¬ TakenBack nouns p.2 (occurrences rd (Dict.keys cands) p.2) w) →
    Dict.get? adj w ≠ none ∨ Dict.get? vb w ≠ none)

/-! ### proofs -/

private theorem extractPredicator_cands {enum : List (Str × Str) → List (Str × Str)} {s : Pred.State} {given : List (Str × Int)} {m : Int}
    {cands : List (Str × Int)} (h : PredCands s given m cands) : Pred.extractPredicator enum s given m = Pred.asLemmaCandidates enum s cands := by
  unfold Pred.extractPredicator
  rcases h with ⟨h1, rfl⟩ | ⟨rfl, c, hc, rfl⟩
  · rw [if_pos h1]
  · rw [if_neg (by simp), hc]
    dsimp only
    congr 2
    funext kv
    rw [Bool.eq_iff_iff, Bool.and_eq_true, decide_eq_true_iff, decide_eq_true_iff, List.all_eq_true]
    simp only [Hangle.isComplete_iff]

theorem pred_extract_split {enum : List (Str × Str) → List (Str × Str)} {s s' : Pred.State} {given : List (Str × Int)} {m : Int}
    {cands : List (Str × Int)} (hc : PredCands s given m cands) {adj vb : Dict Str Pred.Entry} (h : Pred.extract enum s given m = .ok (s', adj, vb)) :
    ∃ a, Pred.lemmaLoop enum s {} cands = .ok a ∧
      s' = { s with numCovered := a.num, countCovered := a.count, eomis := s.eomis.filter (fun e => !(Pred.removeEomis s.nouns a.words).contains e) } ∧
      Pred.separate s' (Pred.removeMorphs s.nouns a.words a.lemmas) = .ok (adj, vb) := by
  unfold Pred.extract at h
  rw [extractPredicator_cands hc] at h
  unfold Pred.asLemmaCandidates at h
  cases hl : Pred.lemmaLoop enum s {} cands with
  | error e => rw [hl] at h; cases h
  | ok a =>
    rw [hl] at h
    dsimp only at h
    by_cases hz : s.verbose = true ∧ s.countOfEojeols = 0
    · rw [if_pos hz] at h; cases h
    · rw [if_neg hz] at h
      dsimp only at h
      obtain ⟨av, hav, he⟩ := Lemma.map_ok h
      have h1 : s' = _ := congrArg Prod.fst he
      have h2 : (adj, vb) = av := congrArg Prod.snd he
      exact ⟨a, rfl, h1, by rw [h1, h2]; exact hav⟩

/-- C56. `extract` reports, for the words it looks at, the pairs of a known stem and a known ending that the lemmatiser offers on some split,
    unless the word is a noun with a particle or the ending is taken back because it looks like a piece of nouns; each pair goes to the verbs
    iff its stem is taken for a verb stem (C50). The stems may be learnt ones. -/
theorem C56_extract_any (enum : List (Str × Str) → List (Str × Str)) (hen : ∀ l, (enum l).Perm l) (s s' : Pred.State) (given cands : List (Str × Int)) (m : Int)
    (hc : PredCands s given m cands) (hw : Dict.WF cands) (adj vb : Dict Str Pred.Entry)
    (h : Pred.extract enum s given m = .ok (s', adj, vb)) : ∃ rd known, PredWords s.nouns cands adj vb rd known ∧
      PredResultBy (IsVerbStem s.verbs s.adjectives known) s s' cands adj vb rd := by
  obtain ⟨a, hl, hs', hsep⟩ := pred_extract_split hc h
  obtain ⟨ha, hf⟩ := Pred.lemmaLoop_eq hl
  obtain ⟨rd, hrd⟩ : ∃ rd, Pred.found enum s = rd := ⟨_, rfl⟩
  rw [hrd] at ha hf
  have ha : a = Pred.collect rd {} cands := ha
  have hread : ∀ w ∈ Dict.keys cands, Readings s.nouns s.josas s.stems s.eomis w (rd w) := by
    intro w hwk
    obtain ⟨kv, hkv, rfl⟩ := List.mem_map.1 hwk
    by_cases hj : Pred.isNounJosa s.nouns s.josas kv.1 = true
    · have : rd kv.1 = [] := by rw [← hrd]; unfold Pred.found; rw [if_pos hj]
      rw [this]
      exact ⟨List.nodup_nil, fun p => by simp [(Pred.isNounJosa_iff _ _ _).1 hj]⟩
    · have hspec := Pred.lemmasOf_spec hen ((hf kv hkv).resolve_left hj)
      exact ⟨hspec.1, fun p => by rw [hspec.2, ← Pred.isNounJosa_iff]; simp [hj]⟩
  have hwords : ∀ e, (Dict.getD a.words e []).map (·.1) = occurrences rd (Dict.keys cands) e := by
    intro e; rw [ha, Pred.collect_words]; rfl
  have hwwf : Dict.WF a.words := by rw [ha]; exact Pred.collect_words_wf _ _ _ Dict.wf_nil
  have hlwf : Dict.WF a.lemmas := by rw [ha]; exact Pred.collect_lemmas_wf _ _ _ Dict.wf_nil
  have hlem : ∀ w, Dict.get? a.lemmas w = (Dict.get? cands w).bind (fun c => Pred.report c (rd w)) := by
    intro w
    rw [ha, Pred.collect_lemmas _ _ hw]
    cases Dict.get? cands w with
    | none => rfl
    | some c => rfl
  obtain ⟨P, hP⟩ : ∃ P, Pred.removeMorphs s.nouns a.words a.lemmas = P := ⟨_, rfl⟩
  have hPget : ∀ w, Dict.get? P w = (Pred.steps s.nouns a.words w).foldl Pred.step ((Dict.get? cands w).bind (fun c => Pred.report c (rd w))) := by
    intro w; rw [← hP, Pred.get?_removeMorphs, hlem]
  have hPwf : Dict.WF P := by rw [← hP]; exact Pred.wf_removeMorphs _ _ _ hlwf
  rw [hP] at hsep
  unfold Pred.separate at hsep
  obtain ⟨hall, hget⟩ := Pred.separateLoop_spec hPwf hsep
  have hstep : ∀ w e, e ∈ Pred.steps s.nouns a.words w ↔ TakenBack s.nouns e (occurrences rd (Dict.keys cands) e) w := by
    intro w e; rw [Pred.mem_steps _ _ hwwf, hwords]
  -- the entry of a candidate
  have hentry : ∀ w c, (w, c) ∈ cands → Dict.get? P w = none ∨ Dict.get? P w = some (c, (rd w).filter (fun l => decide (l.2 ∉ Pred.steps s.nouns a.words w))) := by
    intro w c hwc
    rw [hPget, Dict.get?_of_mem hw hwc, Option.bind_some]
    unfold Pred.report
    by_cases h0 : rd w = []
    · rw [if_pos h0]; exact Or.inl (Pred.foldl_step_none _)
    · rw [if_neg h0]; exact Pred.foldl_step _ _ _
  have hhas : ∀ w, Dict.has P w = true ↔ Dict.get? P w ≠ none := fun w => by
    show (Dict.get? P w).isSome = true ↔ _
    rw [Option.isSome_iff_ne_none]
  have hwordget : ∀ w c, (w, c) ∈ cands → Dict.get? P w ≠ none →
      ∃ as vs, predKept s.nouns rd (Dict.keys cands) w (as ++ vs) ∧ (as ++ vs).Nodup ∧
      (∀ p ∈ as, ¬ IsVerbStem s.verbs s.adjectives (fun w => Dict.has P w = true) p.1) ∧ (∀ p ∈ vs, IsVerbStem s.verbs s.adjectives (fun w => Dict.has P w = true) p.1) ∧
      Dict.get? adj w = (if as = [] then none else some (c, as)) ∧ Dict.get? vb w = (if vs = [] then none else some (c, vs)) := by
    intro w c hwc hne
    have he := (hentry w c hwc).resolve_left hne
    obtain ⟨L, hL⟩ : ∃ L, (rd w).filter (fun l => decide (l.2 ∉ Pred.steps s.nouns a.words w)) = L := ⟨_, rfl⟩
    rw [hL] at he
    have hcl : ∀ l ∈ L, Pred.verbLemma s' (Dict.has P) l = true ↔ IsVerbStem s.verbs s.adjectives (fun w => Dict.has P w = true) l.1 := by
      intro l hl
      have := pred_isVerb_iff (hall (w, (c, L)) (Dict.mem_of_get? he) l hl)
      have hv : s'.verbs = s.verbs := by rw [hs']
      have had : s'.adjectives = s.adjectives := by rw [hs']
      rw [hv, had] at this
      exact this
    have hLn : L.Nodup := by rw [← hL]; exact (hread w (List.mem_map.2 ⟨(w, c), hwc, rfl⟩)).nodup.sublist List.filter_sublist
    refine ⟨L.filter (fun l => !Pred.verbLemma s' (Dict.has P) l), L.filter (Pred.verbLemma s' (Dict.has P)), ?_, ?_, ?_, ?_, ?_, ?_⟩
    · intro p
      rw [← hstep]
      rw [List.mem_append, List.mem_filter, List.mem_filter, ← hL, List.mem_filter]
      simp only [decide_eq_true_iff]
      by_cases hv : Pred.verbLemma s' (Dict.has P) p = true <;> simp [hv]
    · rw [List.nodup_append]
      refine ⟨hLn.sublist List.filter_sublist, hLn.sublist List.filter_sublist, ?_⟩
      intro x hx y hy hxy
      have h1 := (List.mem_filter.1 hx).2
      have h2 := (List.mem_filter.1 hy).2
      rw [hxy, h2] at h1
      cases h1
    · intro p hp hv
      obtain ⟨h1, h2⟩ := List.mem_filter.1 hp
      rw [(hcl p h1).2 hv] at h2; cases h2
    · intro p hp
      obtain ⟨h1, h2⟩ := List.mem_filter.1 hp
      exact (hcl p h1).1 h2
    · rw [(hget w).1, he]
      show (Pred.report c (L.filter (fun l => !Pred.verbLemma s' (Dict.has P) l))).or none = _
      unfold Pred.report
      simp
    · rw [(hget w).2, he]
      show (Pred.report c (L.filter (Pred.verbLemma s' (Dict.has P)))).or none = _
      unfold Pred.report
      simp
  have hreported : ∀ w, Dict.get? P w = none → Dict.get? adj w = none ∧ Dict.get? vb w = none := by
    intro w hn
    rw [(hget w).1, (hget w).2, hn]
    exact ⟨rfl, rfl⟩
  have hcount : ∀ w ∈ Dict.keys cands, ∀ e, ((Dict.getD a.words e []).map (·.1)).countP (fun v => decide (v = w)) = (rd w).countP (fun l => decide (l.2 = e)) := by
    intro w hwk e
    rw [hwords, Pred.count_occurrences _ _ hw, if_pos hwk]
  have hending : ∀ w, ∀ e ∈ Pred.steps s.nouns a.words w, ∃ q ∈ rd w, q.2 = e := by
    intro w e he
    have := ((hstep w e).1 he).1
    unfold occurrences at this
    obtain ⟨v, hv, hrep⟩ := List.mem_flatMap.1 this
    rw [List.mem_replicate] at hrep
    obtain ⟨hcount, rfl⟩ := hrep
    obtain ⟨q, hq, hqe⟩ := List.countP_pos_iff.1 (Nat.pos_of_ne_zero hcount)
    exact ⟨q, hq, of_decide_eq_true hqe⟩
  -- a word whose endings are taken once has an entry that is not empty
  have hstays : ∀ w c, (w, c) ∈ cands → rd w ≠ [] → TakenOnce s.nouns rd (Dict.keys cands) w → Dict.get? P w = if
      (rd w).filter (fun l => decide (l.2 ∉ Pred.steps s.nouns a.words w)) = [] then none else some (c, (rd w).filter (fun l => decide (l.2 ∉ Pred.steps s.nouns a.words w))) := by
    intro w' c hkv hrne hd
    have hwk : w' ∈ Dict.keys cands := List.mem_map.2 ⟨_, hkv, rfl⟩
    have hone : ∀ e ∈ Pred.steps s.nouns a.words w', (rd w').countP (fun l => decide (l.2 = e)) = 1 := by
      intro e he
      obtain ⟨q, hq, rfl⟩ := hending w' e he
      exact hd q hq ((hstep w' _).1 he)
    have hnd : (Pred.steps s.nouns a.words w').Nodup := by
      apply Pred.nodup_steps _ _ hwwf
      intro e he
      rw [hcount w' hwk, hone e he]
    rw [hPget, Dict.get?_of_mem hw hkv, Option.bind_some]
    unfold Pred.report
    rw [if_neg hrne, Pred.foldl_step_distinct _ _ _ hrne hnd hone]
  refine ⟨rd, fun w => Dict.has P w = true, ⟨?_, ?_, ?_⟩, hread, ?_, ?_, ?_, ?_, ?_, ?_, ?_, ?_⟩
  · intro w hne
    rw [hhas]
    intro hn
    obtain ⟨e1, e2⟩ := hreported w hn
    rcases hne with h | h
    · exact h e1
    · exact h e2
  · intro w hk
    rw [hhas, hPget] at hk
    cases hcw : Dict.get? cands w with
    | none => rw [hcw, Option.bind_none, Pred.foldl_step_none] at hk; exact absurd rfl hk
    | some c =>
      refine ⟨List.mem_map.2 ⟨_, Dict.mem_of_get? hcw, rfl⟩, fun h0 => hk ?_⟩
      rw [hcw, Option.bind_some]
      unfold Pred.report
      rw [if_pos h0, Pred.foldl_step_none]
  · intro w hk hd
    rw [hhas] at hk
    have hkc : w ∈ Dict.keys cands ∧ rd w ≠ [] := by
      rw [hPget] at hk
      cases hcw : Dict.get? cands w with
      | none => rw [hcw, Option.bind_none, Pred.foldl_step_none] at hk; exact absurd rfl hk
      | some c =>
        refine ⟨List.mem_map.2 ⟨_, Dict.mem_of_get? hcw, rfl⟩, fun h0 => hk ?_⟩
        rw [hcw, Option.bind_some]
        unfold Pred.report
        rw [if_pos h0, Pred.foldl_step_none]
    obtain ⟨⟨w', c⟩, hkv, hw'⟩ := List.mem_map.1 hkc.1
    have hw' : w' = w := hw'
    subst hw'
    obtain ⟨as, vs, hk1, _, _, _, h1, h2⟩ := hwordget w' c hkv hk
    have hex : ∃ p ∈ rd w', ¬ TakenBack s.nouns p.2 (occurrences rd (Dict.keys cands) p.2) w' := by
      rcases hd with hd | hd
      · have hs0 := hstays w' c hkv hkc.2 hd
        by_cases h0 : (rd w').filter (fun l => decide (l.2 ∉ Pred.steps s.nouns a.words w')) = []
        · rw [if_pos h0] at hs0; exact absurd hs0 hk
        · obtain ⟨p, hp⟩ := List.exists_mem_of_ne_nil _ h0
          obtain ⟨hp1, hp2⟩ := List.mem_filter.1 hp
          rw [decide_eq_true_iff, hstep] at hp2
          exact ⟨p, hp1, hp2⟩
      · exact hd
    obtain ⟨p, hp1, hp2⟩ := hex
    have := (hk1 p).2 ⟨hp1, hp2⟩
    rw [h1, h2]
    rcases List.mem_append.1 this with h | h
    · left; rw [if_neg (List.ne_nil_of_mem h)]; simp
    · right; rw [if_neg (List.ne_nil_of_mem h)]; simp
  · intro w hwk
    have : Dict.get? P w = none := by
      rw [hPget, (Dict.get?_eq_none_iff cands w).2 hwk]; exact Pred.foldl_step_none _
    rw [(hget w).1, (hget w).2, this]
    exact ⟨rfl, rfl⟩
  · intro w c hwc
    by_cases hne : Dict.get? P w = none
    · left
      rw [(hget w).1, (hget w).2, hne]
      exact ⟨rfl, rfl⟩
    · exact Or.inr (hwordget w c hwc hne)
  · intro w hwk hex
    obtain ⟨⟨w', c⟩, hkv, hw'⟩ := List.mem_map.1 hwk
    have hw' : w' = w := hw'
    subst hw'
    obtain ⟨p, hp, hnt, hd⟩ := hex
    have hrne : rd w' ≠ [] := List.ne_nil_of_mem hp
    have hpf : p ∈ (rd w').filter (fun l => decide (l.2 ∉ Pred.steps s.nouns a.words w')) :=
      List.mem_filter.2 ⟨hp, decide_eq_true (fun h => hnt ((hstep _ _).1 h))⟩
    have hne : Dict.get? P w' ≠ none := by
      rcases hd with ⟨q, hq, hqp, hqt⟩ | hd
      · have hqf : q ∈ (rd w').filter (fun l => decide (l.2 ∉ Pred.steps s.nouns a.words w')) :=
          List.mem_filter.2 ⟨hq, decide_eq_true (fun h => hqt ((hstep _ _).1 h))⟩
        have h2 : 2 ≤ ((rd w').filter (fun l => decide (l.2 ∉ Pred.steps s.nouns a.words w'))).length := by
          have : ([q, p] : List (Str × Str)).Nodup := by simp [hqp]
          refine (List.subperm_of_subset this ?_).length_le
          intro x hx
          rcases List.mem_cons.1 hx with rfl | hx
          · exact hqf
          · rw [List.mem_singleton.1 hx]; exact hpf
        rw [hPget, Dict.get?_of_mem hw hkv, Option.bind_some]
        unfold Pred.report
        rw [if_neg hrne, Pred.foldl_step_two _ _ _ h2]
        simp
      · rw [hstays w' c hkv hrne hd, if_neg (List.ne_nil_of_mem hpf)]
        simp
    obtain ⟨as, vs, hk, _, _, _, h1, h2⟩ := hwordget w' c hkv hne
    have := (hk p).2 ⟨hp, hnt⟩
    rw [h1, h2]
    rcases List.mem_append.1 this with h | h
    · left; rw [if_neg (List.ne_nil_of_mem h)]; simp
    · right; rw [if_neg (List.ne_nil_of_mem h)]; simp
  · intro w hwk p hp hothers hsome htwice
    obtain ⟨⟨w', c⟩, hkv, hw'⟩ := List.mem_map.1 hwk
    have hw' : w' = w := hw'
    subst hw'
    have hrne : rd w' ≠ [] := List.ne_nil_of_mem hp
    by_cases hpt : TakenBack s.nouns p.2 (occurrences rd (Dict.keys cands) p.2) w'
    · -- nothing is left
      by_cases hP0 : Dict.get? P w' = none
      · exact hreported _ hP0
      · obtain ⟨as, vs, hk, _, _, _, h1, h2⟩ := hwordget w' c hkv hP0
        have hnil : as ++ vs = [] := by
          rw [List.eq_nil_iff_forall_not_mem]
          intro q hq
          obtain ⟨q1, q2⟩ := (hk q).1 hq
          by_cases hqp : q = p
          · exact q2 (hqp ▸ hpt)
          · exact q2 (hothers q q1 hqp)
        obtain ⟨ha0, hv0⟩ := List.append_eq_nil_iff.1 hnil
        rw [h1, h2, if_pos ha0, if_pos hv0]
        exact ⟨rfl, rfl⟩
    · apply hreported
      obtain ⟨q0, hq0, hqt0⟩ := hsome
      obtain ⟨es, e, hes⟩ := Pred.steps_last s.nouns a.words hwwf w' (List.ne_nil_of_mem ((hstep w' q0.2).2 hqt0)) (by
        intro e he
        obtain ⟨q, hq, rfl⟩ := hending w' e he
        rw [hcount w' hwk]
        exact htwice q hq ((hstep _ _).1 he))
      rw [hPget, Dict.get?_of_mem hw hkv, Option.bind_some]
      unfold Pred.report
      rw [if_neg hrne, hes]
      apply Pred.foldl_step_lost
      rw [← hes]
      have hpf : p ∈ (rd w').filter (fun l => decide (l.2 ∉ Pred.steps s.nouns a.words w')) :=
        List.mem_filter.2 ⟨hp, decide_eq_true (fun h => hpt ((hstep _ _).1 h))⟩
      have hnd : ((rd w').filter (fun l => decide (l.2 ∉ Pred.steps s.nouns a.words w'))).Nodup := (hread w' hwk).nodup.sublist List.filter_sublist
      have hle : ((rd w').filter (fun l => decide (l.2 ∉ Pred.steps s.nouns a.words w'))).length ≤ [p].length := by
        refine (List.subperm_of_subset hnd ?_).length_le
        intro x hx
        obtain ⟨x1, x2⟩ := List.mem_filter.1 hx
        by_contra hxp
        exact of_decide_eq_true x2 ((hstep _ _).2 (hothers x x1 (fun h => hxp (by simp [h]))))
      have := List.length_pos_of_mem hpf
      simp only [List.length_singleton] at hle
      omega
  · intro e
    rw [hs']
    show e ∈ s.eomis.filter _ ↔ _
    rw [List.mem_filter, ← hwords, ← Pred.mem_removeEomis _ _ hwwf]
    simp
  · rw [hs']
    show a.num = _
    rw [ha, Pred.collect_num, List.countP_eq_length_filter]
    simp
  · rw [hs']
    show a.count = _
    rw [ha, Pred.collect_count]
    simp
  · rw [hs']
    exact ⟨rfl, rfl, rfl, rfl, rfl, rfl⟩

/-- C56: when all stems are those of the two dictionaries a pair goes to the verbs iff its stem is a known verb stem. -/
theorem C56_extract (enum : List (Str × Str) → List (Str × Str)) (hen : ∀ l, (enum l).Perm l) (s s' : Pred.State) (given cands : List (Str × Int)) (m : Int)
    (hc : PredCands s given m cands) (hw : Dict.WF cands) (hs : ∀ x ∈ s.stems, x ∈ s.adjectives ∨ x ∈ s.verbs) (adj vb : Dict Str Pred.Entry)
    (h : Pred.extract enum s given m = .ok (s', adj, vb)) : ∃ rd, PredResult s s' cands adj vb rd := by
  obtain ⟨rd, known, _, R⟩ := C56_extract_any enum hen s s' given cands m hc hw adj vb h
  refine ⟨rd, R.readings, R.other, ?_, R.complete, R.lost, R.eomis, R.num, R.count, R.rest⟩
  intro w c hwc
  rcases R.word w c hwc with h | ⟨as, vs, h1, h2, h3, h4, h5, h6⟩
  · exact Or.inl h
  · have hst : ∀ p ∈ as ++ vs, p.1 ∈ s.adjectives ∨ p.1 ∈ s.verbs := fun p hp =>
      hs p.1 (((R.readings w (List.mem_map.2 ⟨_, hwc, rfl⟩)).mem p).1 ((h1 p).1 hp).1).2.1
    refine Or.inr ⟨as, vs, h1, h2, fun p hp hv => h3 p hp (Or.inl hv), fun p hp => ?_, h5, h6⟩
    rcases h4 p hp with hv | ⟨hna, _⟩
    · exact hv
    · exact (hst p (List.mem_append_right _ hp)).resolve_left hna

private theorem reading_stem {stems eomis : List Str} {w : Str} {p : Str × Str} (h : Reading stems eomis w p) (hw : ∀ c ∈ w, Syllable c) :
    p.1 ≠ [] ∧ ∀ c ∈ p.1, Syllable c := by
  obtain ⟨_, _, l, r, cs, hl, rfl, hc, hp⟩ := h
  obtain ⟨raw, hraw, hgood⟩ := Lemma.rawCandidates_ok l r hl (fun c h => hw c (List.mem_append_left _ h)) (fun c h => hw c (List.mem_append_right _ h))
  unfold Lemma.lemmaCandidate at hc
  rw [hraw] at hc
  have := hgood p ((Lemma.mem_filterCandidates _ _ _ hc p).1 hp).1
  exact ⟨this.1, this.2.1⟩

/-- C56: whatever the stems, `extract` succeeds iff every word it looks at is a noun with a particle or written in complete
    syllables, except that a talkative extractor trained on nothing divides by zero. Without words and without training it raises. -/
theorem C56_total (enum : List (Str × Str) → List (Str × Str)) (hen : ∀ l, (enum l).Perm l) (s : Pred.State) (given cands : List (Str × Int)) (m : Int)
    (hc : PredCands s given m cands) (hw : Dict.WF cands) :
    (∃ r, Pred.extract enum s given m = .ok r) ↔
      (∀ kv ∈ cands, NounJosa s.nouns s.josas kv.1 ∨ ∀ c ∈ kv.1, Syllable c) ∧ ¬ (s.verbose = true ∧ s.countOfEojeols = 0) := by
  rw [← Pred.lemmaLoop_ok (enum := enum) cands {}]
  unfold Pred.extract
  rw [extractPredicator_cands hc]
  unfold Pred.asLemmaCandidates
  cases hl : Pred.lemmaLoop enum s {} cands with
  | error e =>
    dsimp only
    constructor
    · rintro ⟨r, h⟩; cases h
    · rintro ⟨⟨a, h⟩, _⟩; cases h
  | ok a =>
    dsimp only
    by_cases hz : s.verbose = true ∧ s.countOfEojeols = 0
    · rw [if_pos hz]
      dsimp only
      constructor
      · rintro ⟨r, h⟩; cases h
      · rintro ⟨_, h⟩; exact absurd hz h
    · rw [if_neg hz]
      dsimp only
      refine ⟨fun _ => ⟨⟨a, rfl⟩, hz⟩, fun _ => ?_⟩
      obtain ⟨ha, hf⟩ := Pred.lemmaLoop_eq hl
      have hlwf : Dict.WF a.lemmas := by rw [ha]; exact Pred.collect_lemmas_wf _ _ _ Dict.wf_nil
      have hlem : ∀ w, Dict.get? a.lemmas w = (Dict.get? cands w).bind (fun c => Pred.report c (Pred.found enum s w)) := by
        intro w
        rw [ha]
        have := Pred.collect_lemmas (Pred.found enum s) cands hw {} w
        unfold Pred.collect at this
        rw [this]
        cases Dict.get? cands w with
        | none => rfl
        | some c => rfl
      obtain ⟨av, hav⟩ := Pred.separateLoop_ok (s := { s with
          numCovered := a.num, countCovered := a.count, eomis := s.eomis.filter (fun e => !(Pred.removeEomis s.nouns a.words).contains e) })
          (known := Dict.has (Pred.removeMorphs s.nouns a.words a.lemmas)) (Pred.removeMorphs s.nouns a.words a.lemmas) [] [] (by
        intro kp hkp l hl'
        suffices hr : Reading s.stems s.eomis kp.1 l ∧ ∀ ch ∈ kp.1, Syllable ch from pred_isVerb_total _ _ l (reading_stem hr.1 hr.2).1 (reading_stem hr.1 hr.2).2
        have h1 := Dict.get?_of_mem (Pred.wf_removeMorphs _ _ _ hlwf) hkp
        rw [Pred.get?_removeMorphs, hlem] at h1
        cases hcw : Dict.get? cands kp.1 with
        | none => rw [hcw, Option.bind_none, Pred.foldl_step_none] at h1; cases h1
        | some c =>
          rw [hcw, Option.bind_some] at h1
          unfold Pred.report at h1
          by_cases h0 : Pred.found enum s kp.1 = []
          · rw [if_pos h0, Pred.foldl_step_none] at h1; cases h1
          · rw [if_neg h0] at h1
            rcases Pred.foldl_step (Pred.steps s.nouns a.words kp.1) c (Pred.found enum s kp.1) with h2 | h2
            · rw [h2] at h1; cases h1
            · rw [h2] at h1
              have h3 : kp.2.2 = _ := congrArg Prod.snd (Option.some.inj h1).symm
              rw [h3] at hl'
              have h4 : l ∈ Pred.found enum s kp.1 := (List.mem_filter.1 hl').1
              have h5 := hf (kp.1, c) (Dict.mem_of_get? hcw)
              by_cases hj : Pred.isNounJosa s.nouns s.josas kp.1 = true
              · exfalso; apply h0; unfold Pred.found; rw [if_pos hj]
              · refine ⟨((Pred.lemmasOf_spec hen (h5.resolve_left hj)).2 l).1 h4, ?_⟩
                exact (Pred.lemmasOf_ok_iff enum s.stems s.eomis kp.1).1 ⟨_, h5.resolve_left hj⟩)
      unfold Pred.separate
      rw [hav]
      exact ⟨_, rfl⟩

/-- C56: `extract` without words before `train` raises. -/
theorem C56_untrained (enum : List (Str × Str) → List (Str × Str)) (s : Pred.State) (h : s.counter = none) (m : Int) :
    Pred.extract enum s [] m = .error .attributeError := by
  unfold Pred.extract Pred.extractPredicator
  rw [if_neg (by simp), h]

/-- C56: every reported pair really conjugates to its word. -/
theorem C56_sound (verb : Str → Prop) (s s' : Pred.State) (cands : List (Str × Int)) (adj vb : Dict Str Pred.Entry) (rd : Str → List (Str × Str))
    (h : PredResultBy verb s s' cands adj vb rd) (w : Str) (c : Int) (ls : List (Str × Str))
    (hl : Dict.get? adj w = some (c, ls) ∨ Dict.get? vb w = some (c, ls)) :
    (w, c) ∈ cands ∧ ¬ NounJosa s.nouns s.josas w ∧ ls ≠ [] ∧ ls.Nodup ∧
    ∀ p ∈ ls, p.1 ∈ s.stems ∧ p.2 ∈ s.eomis ∧ (∃ b, Lemma.conjugate p.1 p.2 = .ok b ∧ w ∈ b) ∧
      (Dict.get? vb w = some (c, ls) → verb p.1) ∧ (Dict.get? adj w = some (c, ls) → ¬ verb p.1) := by
  by_cases hk : w ∈ Dict.keys cands
  · obtain ⟨⟨w', c'⟩, hkv, hw'⟩ := List.mem_map.1 hk
    have hw' : w' = w := hw'
    subst hw'
    rcases h.word w' c' hkv with ⟨h1, h2⟩ | ⟨as, vs, h1, h2, h3, h4, h5, h6⟩
    · rcases hl with hl | hl
      · rw [h1] at hl; cases hl
      · rw [h2] at hl; cases hl
    · have hr := h.readings w' hk
      have rep : ∀ {L : List (Str × Str)}, (if L = [] then none else some (c', L)) = some (c, ls) → c' = c ∧ L = ls ∧ L ≠ [] := by
        intro L hL
        by_cases h0 : L = []
        · rw [if_pos h0] at hL; cases hL
        · rw [if_neg h0] at hL
          have := Option.some.inj hL
          exact ⟨congrArg Prod.fst this, congrArg Prod.snd this, h0⟩
      have fin : c' = c → ls ≠ [] → (∀ p ∈ ls, p ∈ as ++ vs) → ls.Nodup → (w', c) ∈ cands ∧ ¬ NounJosa s.nouns s.josas w' ∧ ls ≠ [] ∧ ls.Nodup ∧
          ∀ p ∈ ls, p.1 ∈ s.stems ∧ p.2 ∈ s.eomis ∧ (∃ b, Lemma.conjugate p.1 p.2 = .ok b ∧ w' ∈ b) ∧
          (Dict.get? vb w' = some (c, ls) → verb p.1) ∧ (Dict.get? adj w' = some (c, ls) → ¬ verb p.1) := by
        rintro rfl hne hsub hnd
        have hmem : ∀ p ∈ ls, ¬ NounJosa s.nouns s.josas w' ∧ Reading s.stems s.eomis w' p := fun p hp => (hr.mem p).1 ((h1 p).1 (hsub p hp)).1
        obtain ⟨p0, hp0⟩ := List.exists_mem_of_ne_nil _ hne
        refine ⟨hkv, (hmem p0 hp0).1, hne, hnd, fun p hp => ⟨(hmem p hp).2.1, (hmem p hp).2.2.1, Pred.reading_conj (hmem p hp).2, ?_, ?_⟩⟩
        · intro hv
          rw [h6] at hv
          exact h4 p ((rep hv).2.1 ▸ hp)
        · intro hv
          rw [h5] at hv
          exact h3 p ((rep hv).2.1 ▸ hp)
      rcases hl with hl | hl
      · rw [h5] at hl
        obtain ⟨e1, e2, e3⟩ := rep hl
        exact fin e1 (e2 ▸ e3) (fun p hp => List.mem_append_left _ (e2 ▸ hp)) (e2 ▸ (List.nodup_append.1 h2).1)
      · rw [h6] at hl
        obtain ⟨e1, e2, e3⟩ := rep hl
        exact fin e1 (e2 ▸ e3) (fun p hp => List.mem_append_right _ (e2 ▸ hp)) (e2 ▸ (List.nodup_append.1 h2).2.1)
  · obtain ⟨h1, h2⟩ := h.other w hk
    rcases hl with hl | hl
    · rw [h1] at hl; cases hl
    · rw [h2] at hl; cases hl

/-! ### construction and training -/

private theorem removeStemPrefix_iff (S nouns : List Str) (n : Str) :
    n ∈ Pred.removeStemPrefix S nouns.dedup ↔ n ∈ nouns ∧ ¬ ∃ x ∈ S, x.dropLast = n ∨ (x.dropLast ∉ nouns ∧ x.dropLast.dropLast = n) := by
  have e : ∀ x : Str, x.take (x.length - 2) = x.dropLast.dropLast := by
    intro x
    rw [List.dropLast_eq_take, List.dropLast_eq_take, List.length_take, List.take_take]; congr 1; omega
  unfold Pred.removeStemPrefix
  dsimp only
  rw [List.mem_filter, List.mem_dedup]
  refine and_congr_right (fun hn => ?_)
  rw [Bool.not_eq_true', ← Bool.not_eq_true, List.contains_iff_mem, List.mem_filterMap]
  refine not_congr ⟨?_, ?_⟩
  · rintro ⟨x, hx, hp⟩
    refine ⟨x, hx, ?_⟩
    unfold Pred.parseNoun at hp
    rw [← List.dropLast_eq_take, e] at hp
    by_cases h1 : (nouns.dedup.contains x.dropLast) = true
    · rw [if_pos h1] at hp; exact Or.inl (Option.some.inj hp)
    · rw [if_neg h1] at hp
      rw [List.contains_iff_mem, List.mem_dedup] at h1
      by_cases h2 : (nouns.dedup.contains x.dropLast.dropLast) = true
      · rw [if_pos h2] at hp; exact Or.inr ⟨h1, Option.some.inj hp⟩
      · rw [if_neg h2] at hp; cases hp
  · rintro ⟨x, hx, hp⟩
    refine ⟨x, hx, ?_⟩
    unfold Pred.parseNoun
    rw [← List.dropLast_eq_take, e]
    rcases hp with hp | ⟨h1, hp⟩
    · rw [if_pos (by rw [List.contains_iff_mem, List.mem_dedup, hp]; exact hn), hp]
    · rw [if_neg (by rw [List.contains_iff_mem, List.mem_dedup]; exact h1), if_pos (by rw [List.contains_iff_mem, List.mem_dedup, hp]; exact hn), hp]

/-- C56: stems are the adjectives and the verbs; a noun is forgotten iff it is a stem without its last character, or a stem without its
    last two characters where the stem without its last is not a noun. -/
theorem C56_construct (dj da dv de nouns : List Str) (josas adjectives verbs eomis : Option (List Str)) (verbose en : Bool) :
    let s := Pred.construct dj da dv de nouns josas adjectives verbs eomis verbose en
    (∀ x, x ∈ s.stems ↔ x ∈ s.adjectives ∨ x ∈ s.verbs) ∧
    (s.adjectives, s.verbs) = (match adjectives, verbs with | some a, some v => (a, v) | _, _ => (da, dv)) ∧
    s.josas = (match josas with | some (j :: js) => j :: js | _ => dj) ∧ s.eomis = eomis.getD de ∧
    (∀ n, n ∈ s.nouns ↔ n ∈ nouns ∧ ¬ ∃ x ∈ s.stems, x.dropLast = n ∨ (x.dropLast ∉ nouns ∧ x.dropLast.dropLast = n)) := by
  dsimp only
  refine ⟨?_, ?_, ?_, rfl, ?_⟩
  · intro x
    unfold Pred.construct
    dsimp only
    rw [List.mem_dedup, List.mem_append]
  · unfold Pred.construct; rfl
  · unfold Pred.construct; rfl
  · intro n
    unfold Pred.construct
    dsimp only
    exact removeStemPrefix_iff _ nouns n

/-- C56: training on a counter keeps the words with at least the given count -- and removes the others from the caller's counter too. -/
theorem C56_train_counter (s : Pred.State) (c : EC.State) (m : Int) :
    let r := Pred.trainWithEojeolCounter s c m
    r.1.counter = some r.2 ∧ r.2.counter = c.counter.filter (fun kv => decide (m ≤ kv.2)) ∧ r.2.countSum = (r.2.counter.map (·.2)).sum ∧
    r.1.numOfEojeols = r.2.counter.length ∧ r.1.countOfEojeols = (r.2.counter.map (·.2)).sum ∧ r.1.numCovered = 0 ∧ r.1.countCovered = 0 ∧
    (r.1.nouns, r.1.josas, r.1.stems, r.1.eomis, r.1.adjectives, r.1.verbs) = (s.nouns, s.josas, s.stems, s.eomis, s.adjectives, s.verbs) :=
  ⟨rfl, rfl, rfl, rfl, rfl, rfl, rfl, rfl⟩

/-- C56: training on sentences counts the eojeols (normalised unless the caller vouches for it) of at most 15 characters and keeps those
    with at least `max m 2` occurrences: a smaller minimum than 2 has no effect. Without sentences it raises. -/
theorem C56_train_sentences (s : Pred.State) (sents : List Str) (m : Int) :
    (sents = [] → Pred.trainWithSentences s sents m = .error .valueError) ∧
    (sents ≠ [] → ∃ s' c, Pred.trainWithSentences s sents m = .ok s' ∧ s'.counter = some c ∧ Dict.WF c.counter ∧
      ∀ e n, (e, n) ∈ c.counter ↔ e ∈ eojeolsOf (if s.ensureNormalized then id else Normalizer.normalizeSentForLrgraph) sents ∧ e.length ≤ 15 ∧
        n = (eojeolsOf (if s.ensureNormalized then id else Normalizer.normalizeSentForLrgraph) sents).count e ∧ max m 2 ≤ n) := by
  constructor
  · rintro rfl
    rfl
  · intro hne
    obtain ⟨c, h1, h2, _, h4⟩ := C21_exact (Pred.counterParams s m) sents hne (Or.inl (by show (0 : Int) ≤ 0; omega))
    unfold Pred.trainWithSentences
    rw [h1]
    refine ⟨_, _, rfl, rfl, ?_, ?_⟩
    · exact h2.filter _
    · intro e n
      show (e, n) ∈ c.counter.filter _ ↔ _
      rw [List.mem_filter, h4, decide_eq_true_iff]
      show (e ∈ _ ∧ (e.length : Int) ≤ 15 ∧ n = _ ∧ m ≤ n) ∧ n ≥ 2 ↔ _
      constructor
      · rintro ⟨⟨a, b, c, d⟩, e⟩; exact ⟨a, by omega, c, by omega⟩
      · rintro ⟨a, b, c, d⟩; exact ⟨⟨a, by omega, c, by omega⟩, by omega⟩

/-- C56: training on the graph of a counter keeps the words of the counter that are not empty, no longer than the parts together and
    frequent enough. -/
theorem C56_train_lrgraph (s : Pred.State) (c0 : EC.State) (hw : c0.counter.WF) (lMax rMax : Int) (i : Bool) (g : LR.State)
    (hg : LR.toLrgraph c0 lMax rMax i = .ok g) (m : Int) : ∃ s' c, Pred.trainWithLrgraph s g m = .ok s' ∧ s'.counter = some c ∧ Dict.WF c.counter ∧
      ∀ w n, (w, n) ∈ c.counter ↔ (w, n) ∈ c0.counter ∧ w ≠ [] ∧ (w.length : Int) ≤ lMax + rMax ∧ m ≤ n := by
  obtain ⟨c, h1, h2, _, h4⟩ := C26_back c0 hw lMax rMax i g hg false
  unfold Pred.trainWithLrgraph
  rw [h1]
  refine ⟨_, _, rfl, rfl, h2.filter _, ?_⟩
  intro w n
  show (w, n) ∈ c.counter.filter _ ↔ _
  rw [List.mem_filter, h4, decide_eq_true_iff, ← List.length_pos_iff]
  constructor
  · rintro ⟨⟨a, b, c⟩, d⟩; exact ⟨a, b, c, d⟩
  · rintro ⟨a, b, c, d⟩; exact ⟨⟨a, b, c⟩, d⟩

/-! ### examples and findings -/

set_option synthInstance.maxSize 1000
set_option synthInstance.maxHeartbeats 200000

private def exState (nouns verbs eomis : List String) : Pred.State :=
  Pred.construct [] [] [] [] (nouns.map (·.toList)) (some ["는".toList]) (some ["예쁘".toList]) (some (verbs.map (·.toList)))
    (some (eomis.map (·.toList))) false false

private def exRun (enum : List (Str × Str) → List (Str × Str)) (s : Pred.State) (ws : List (String × Int)) :
    Option (List (Str × Int × List (Str × Str)) × List (Str × Int × List (Str × Str)) × List Str) :=
  match Pred.extract enum s (ws.map (fun w => (w.1.toList, w.2))) with
  | .ok (s', adj, vb) => some (adj, vb, s'.eomis)
  | .error _ => none

/-- 사과는 is a noun with a particle, 과 is given up (사+과 is the noun 사과), 가+지 is taken back (the noun 가지), 먹+지 stays -/
example : exRun id (exState ["사과", "가지"] ["먹", "사", "가"] ["었다", "지", "다", "과"])
    [("먹었다", 3), ("가지", 4), ("사과는", 2), ("사과", 5), ("예쁘다", 1), ("먹지", 2), ("예쁘지", 1)] =
    some ([("예쁘다".toList, 1, [("예쁘".toList, "다".toList)]), ("예쁘지".toList, 1, [("예쁘".toList, "지".toList)])],
      [("먹었다".toList, 3, [("먹".toList, "었다".toList)]), ("먹지".toList, 2, [("먹".toList, "지".toList)])],
      ["었다".toList, "지".toList, "다".toList]) := by decide +kernel

/-- C56, finding: a word with a good reading is lost. 산+다 is not suspicious, but since both 사+ㄴ다 and 살+ㄴ다 are taken back from 산다 the
    word is popped at the second removal, whatever the order of the readings. -/
theorem C56_lost_violation : ∀ enum ∈ [id, List.reverse],
    exRun enum (exState ["산다"] ["먹", "사", "살", "산", "뛰"] ["ㄴ다", "다"]) [("산다", 3), ("먹다", 4), ("뛰다", 4)] =
    some ([], [("먹다".toList, 4, [("먹".toList, "다".toList)]), ("뛰다".toList, 4, [("뛰".toList, "다".toList)])], ["다".toList]) := by
  intro enum h
  simp only [List.mem_cons, List.not_mem_nil, or_false] at h
  rcases h with rfl | rfl <;> decide +kernel

/-- C56, finding: the result depends on the order in which a set is enumerated, that is on the hash seed of the process. -/
theorem C56_order_violation :
    exRun id (exState ["산다"] ["먹", "사", "살", "산", "뛰", "스"] ["ㄴ다", "다", "안다"]) [("산다", 3), ("먹다", 4), ("뛰다", 4)] =
      some ([], [("산다".toList, 3, [("산".toList, "다".toList)]), ("먹다".toList, 4, [("먹".toList, "다".toList)]), ("뛰다".toList, 4, [("뛰".toList, "다".toList)])], ["다".toList]) ∧
    exRun List.reverse (exState ["산다"] ["먹", "사", "살", "산", "뛰", "스"] ["ㄴ다", "다", "안다"]) [("산다", 3), ("먹다", 4), ("뛰다", 4)] =
      some ([], [("먹다".toList, 4, [("먹".toList, "다".toList)]), ("뛰다".toList, 4, [("뛰".toList, "다".toList)])], ["다".toList]) := by
  refine ⟨?_, ?_⟩ <;> decide +kernel

/-- the hypotheses of `C56_extract`, `C56_total` hold for these states -/
example : let s := exState ["사과", "가지"] ["먹", "사", "가"] ["었다", "지", "다", "과"]
    PredCands s [("먹지".toList, 2)] 1 [("먹지".toList, 2)] ∧ Dict.WF [("먹지".toList, (2 : Int))] ∧ ∀ x ∈ s.stems, x ∈ s.adjectives ∨ x ∈ s.verbs :=
  ⟨Or.inl ⟨by simp, rfl⟩, by decide +kernel, by decide +kernel⟩

/-- a letter that is not a complete syllable raises when the caller hands in the words -/
example : exRun id (exState ["사과"] ["먹"] ["다"]) [("먹ㅋ", 3)] = none := by decide +kernel
/-- 먹 is forgotten as a noun because 먹이 is a stem -/
example : (exState ["먹", "사과"] ["먹이"] []).nouns = ["사과".toList] := by decide +kernel
/-- a minimum of 1 counts as 2 -/
example : (match Pred.trainWithSentences (exState [] ["먹"] ["다"]) ["먹다 먹다 먹지".toList] 1 with
    | .ok s => s.counter.map (·.counter) | .error _ => none) = some [("먹다".toList, 2)] := by decide +kernel

end Props
