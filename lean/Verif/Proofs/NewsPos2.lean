import Verif.Proofs.NewsPos
/-! The passes of the POS extractors, and the invariant on the counters. -/
namespace NewsPos
open Py PosSpec

/-! ### matching of eojeols -/

theorem removeRecognized_filter (E : Dict Str Nat) (p rem : Str → Bool) :
    removeRecognized (E.filter (fun e => p e.1)) rem = E.filter (fun e => p e.1 && !rem e.1) := by
  unfold removeRecognized
  rw [List.filter_filter]
  exact List.filter_congr (fun e _ => Bool.and_comm _ _)

theorem mem_keys_removeRecognized (R : Dict Str Nat) (rem : Str → Bool) (w : Str) :
    w ∈ Dict.keys (removeRecognized R rem) ↔ w ∈ Dict.keys R ∧ rem w = false := by
  unfold removeRecognized
  rw [mem_keys_filter R (fun w => !rem w)]; simp

/-- the words known before `extract` -/
def known (s : State) (w : Str) : Bool := s.nouns.contains w || Dict.has s.adjectives w || Dict.has s.verbs w || s.adverbs.contains w

theorem matchWord_eojeols (s : State) : (matchWord s).eojeols = s.eojeols.filter (fun e => !known s e.1) := by
  have key : ∀ (p : Str → Bool) (R : Dict Str Nat) (q : Str → Bool), R = s.eojeols.filter (fun e => q e.1) →
      removeRecognized R (Dict.has (s.eojeols.filter (fun e => p e.1))) = s.eojeols.filter (fun e => q e.1 && !p e.1) := by
    intro p R q h
    rw [h, removeRecognized_filter]
    apply List.filter_congr
    intro e he
    congr 2
    rw [Bool.eq_iff_iff, has_iff, mem_keys_filter]
    exact ⟨fun h => h.2, fun h => ⟨List.mem_map.2 ⟨e, he, rfl⟩, h⟩⟩
  unfold matchWord
  dsimp only
  have h0 : s.eojeols = s.eojeols.filter (fun e => (fun _ => true : Str → Bool) e.1) := by simp
  have h1 := key (fun w => s.nouns.contains w) _ (fun _ => true) h0
  have h2 := key (fun w => Dict.has s.adjectives w) _ (fun w => true && !s.nouns.contains w) h1
  have h3 := key (fun w => Dict.has s.verbs w) _ (fun w => (true && !s.nouns.contains w) && !Dict.has s.adjectives w) h2
  have h4 := key (fun w => s.adverbs.contains w) _ (fun w => ((true && !s.nouns.contains w) && !Dict.has s.adjectives w) && !Dict.has s.verbs w) h3
  rw [h4]
  apply List.filter_congr
  intro e _
  unfold known
  cases s.nouns.contains e.1 <;> cases Dict.has s.adjectives e.1 <;> cases Dict.has s.verbs e.1 <;> cases s.adverbs.contains e.1 <;> rfl

/-! ### noun + word -/

theorem matchProcess_nouns (R N : Dict Str Nat) (rset : Str → Bool) (rc : Dict Str Nat) (rem : List Str) :
    (matchProcess R N rset rc rem).1 = cumulate N (credit R (fun w => (separateLR w (Dict.has N) rset).map (·.1))) := by
  unfold matchProcess credit
  dsimp only
  rw [List.map_filterMap]
  congr 1
  apply List.filterMap_congr
  intro e _
  cases separateLR e.1 (Dict.has N) rset <;> rfl

theorem matchProcess_counter (R N : Dict Str Nat) (rset : Str → Bool) (rc : Dict Str Nat) (rem : List Str) :
    (matchProcess R N rset rc rem).2.1 = cumulate rc (credit R (fun w => (separateLR w (Dict.has N) rset).map (·.2))) := by
  unfold matchProcess credit
  dsimp only
  rw [List.map_filterMap]
  congr 1
  apply List.filterMap_congr
  intro e _
  cases separateLR e.1 (Dict.has N) rset <;> rfl

theorem matchProcess_removals (R N : Dict Str Nat) (rset : Str → Bool) (rc : Dict Str Nat) (rem : List Str) (w : Str) :
    w ∈ (matchProcess R N rset rc rem).2.2 ↔ w ∈ rem ∨ w ∈ Dict.keys R ∧ (separateLR w (Dict.has N) rset).isSome = true := by
  unfold matchProcess
  simp only [List.mem_append, List.mem_map, List.mem_filterMap]
  apply or_congr Iff.rfl
  constructor
  · rintro ⟨x, ⟨e, he, hx⟩, rfl⟩
    cases hs : separateLR e.1 (Dict.has N) rset with
    | none => rw [hs] at hx; cases hx
    | some lr =>
      rw [hs] at hx; cases hx
      dsimp only
      rw [← (separateLR_some hs).1]
      exact ⟨⟨e, he, rfl⟩, by rw [hs]; rfl⟩
  · rintro ⟨⟨e, he, rfl⟩, hs⟩
    obtain ⟨lr, hlr⟩ := Option.isSome_iff_exists.1 hs
    exact ⟨(lr, e.2), ⟨e, he, by rw [hlr]; rfl⟩, (separateLR_some hlr).1.symm⟩

theorem has_matchProcess (R N : Dict Str Nat) (rset : Str → Bool) (rc : Dict Str Nat) (rem : List Str) :
    Dict.has (matchProcess R N rset rc rem).1 = Dict.has N := by
  funext w
  rw [Bool.eq_iff_iff, has_iff, has_iff, matchProcess_nouns, mem_keys_cumulate, mem_keys_credit]
  refine ⟨fun h => ?_, Or.inl⟩
  rcases h with h | ⟨e, _, h⟩
  · exact h
  · cases hs : separateLR e (Dict.has N) rset with
    | none => rw [hs] at h; cases h
    | some lr => rw [hs] at h; cases h; exact (has_iff _ _).1 (separateLR_some hs).2.2.2.1

theorem has_matchProcess_counter (R N rc : Dict Str Nat) (rem : List Str) :
    Dict.has (matchProcess R N (Dict.has rc) rc rem).2.1 = Dict.has rc := by
  funext w
  rw [Bool.eq_iff_iff, has_iff, has_iff, matchProcess_counter, mem_keys_cumulate, mem_keys_credit]
  refine ⟨fun h => ?_, Or.inl⟩
  rcases h with h | ⟨e, _, h⟩
  · exact h
  · cases hs : separateLR e (Dict.has N) (Dict.has rc) with
    | none => rw [hs] at h; cases h
    | some lr => rw [hs] at h; cases h; exact (has_iff _ _).1 (separateLR_some hs).2.2.2.2

/-- the words read as noun + something in `rset` -/
abbrev sepOf (f : Found) (rset : Str → Bool) (w : Str) : Option (Str × Str) := separateLR w (Dict.has f.nouns) rset

/-- read as noun + particle, adjective or verb -/
def nounRead (s : State) (f : Found) (w : Str) : Bool :=
  (sepOf f (fun r => s.josas.contains r) w).isSome || (sepOf f (Dict.has f.adjectives) w).isSome || (sepOf f (Dict.has f.verbs) w).isSome

theorem nounAndWord_eojeols (s : State) (f : Found) : (matchNounAndWord s f).eojeols = removeRecognized f.eojeols (nounRead s f) := by
  unfold matchNounAndWord removeRecognized
  dsimp only
  apply List.filter_congr
  intro e he
  congr 1
  have hk : e.1 ∈ Dict.keys f.eojeols := List.mem_map.2 ⟨e, he, rfl⟩
  rw [Bool.eq_iff_iff, List.contains_iff_mem, matchProcess_removals, matchProcess_removals, matchProcess_removals, has_matchProcess,
    has_matchProcess, has_matchProcess]
  simp only [List.not_mem_nil, false_or, hk, true_and, nounRead, Bool.or_eq_true]

theorem nounAndWord_nouns (s : State) (f : Found) : (matchNounAndWord s f).nouns =
    cumulate (cumulate (cumulate f.nouns (credit f.eojeols (fun w => (sepOf f (fun r => s.josas.contains r) w).map (·.1))))
      (credit f.eojeols (fun w => (sepOf f (Dict.has f.adjectives) w).map (·.1))))
      (credit f.eojeols (fun w => (sepOf f (Dict.has f.verbs) w).map (·.1))) := by
  unfold matchNounAndWord
  dsimp only
  rw [matchProcess_nouns, has_matchProcess, has_matchProcess, matchProcess_nouns, has_matchProcess, matchProcess_nouns]

theorem nounAndWord_adjectives (s : State) (f : Found) : (matchNounAndWord s f).adjectives =
    cumulate f.adjectives (credit f.eojeols (fun w => (sepOf f (Dict.has f.adjectives) w).map (·.2))) := by
  unfold matchNounAndWord
  dsimp only
  rw [matchProcess_counter, has_matchProcess]

theorem nounAndWord_verbs (s : State) (f : Found) : (matchNounAndWord s f).verbs =
    cumulate f.verbs (credit f.eojeols (fun w => (sepOf f (Dict.has f.verbs) w).map (·.2))) := by
  unfold matchNounAndWord
  dsimp only
  rw [matchProcess_counter, has_matchProcess, has_matchProcess]

theorem nounAndWord_josas (s : State) (f : Found) : (matchNounAndWord s f).josas =
    cumulate [] (credit f.eojeols (fun w => (sepOf f (fun r => s.josas.contains r) w).map (·.2))) := by
  unfold matchNounAndWord
  dsimp only
  rw [matchProcess_counter]

theorem nounAndWord_adverbs (s : State) (f : Found) : (matchNounAndWord s f).adverbs = f.adverbs := rfl

theorem has_nounAndWord_nouns (s : State) (f : Found) : Dict.has (matchNounAndWord s f).nouns = Dict.has f.nouns := by
  unfold matchNounAndWord
  dsimp only
  rw [has_matchProcess, has_matchProcess, has_matchProcess]

theorem has_nounAndWord_adjectives (s : State) (f : Found) : Dict.has (matchNounAndWord s f).adjectives = Dict.has f.adjectives := by
  unfold matchNounAndWord
  dsimp only
  rw [has_matchProcess_counter]

theorem has_nounAndWord_verbs (s : State) (f : Found) : Dict.has (matchNounAndWord s f).verbs = Dict.has f.verbs := by
  unfold matchNounAndWord
  dsimp only
  rw [has_matchProcess_counter]

/-! ### predicator compounds -/

/-- the lemmas of a compound, if it is one -/
def compOf (check : Str → Str → PyM Bool) (stems predicators : Str → Bool) (base : Dict Str Entry) (w : Str) : Option (List (Str × Str)) :=
  match compoundOf check stems predicators base w with
  | .ok o => o
  | .error _ => none

theorem parseCompounds_eq {check : Str → Str → PyM Bool} {stems predicators : Str → Bool} {base : Dict Str Entry} {R : Dict Str Nat}
    {cs : Dict Str Entry} (h : parseCompounds check stems predicators base R = .ok cs) : cs = entriesOf R (compOf check stems predicators base) := by
  induction R generalizing cs with
  | nil => simp only [parseCompounds, Except.ok.injEq] at h; subst h; rfl
  | cons x R ih =>
    obtain ⟨a, b⟩ := x
    simp only [parseCompounds] at h
    unfold entriesOf at ih ⊢
    simp only [List.filterMap_cons]
    cases hc : compoundOf check stems predicators base a with
    | error e => rw [hc] at h; cases h
    | ok o =>
      rw [hc] at h
      have hco : compOf check stems predicators base a = o := by simp only [compOf, hc]
      rw [hco]
      cases o with
      | none => exact ih h
      | some ls =>
        dsimp only at h
        cases hp : parseCompounds check stems predicators base R with
        | error e => rw [hp] at h; cases h
        | ok more => rw [hp] at h; cases h; rw [ih hp]; rfl

theorem parseCompounds_all {check : Str → Str → PyM Bool} {stems predicators : Str → Bool} {base : Dict Str Entry} {R : Dict Str Nat}
    {cs : Dict Str Entry} (h : parseCompounds check stems predicators base R = .ok cs) (w : Str) (hw : w ∈ Dict.keys R) :
    compoundOf check stems predicators base w = .ok (compOf check stems predicators base w) := by
  induction R generalizing cs with
  | nil => simp [Dict.keys] at hw
  | cons x R ih =>
    obtain ⟨a, b⟩ := x
    simp only [parseCompounds] at h
    cases hc : compoundOf check stems predicators base a with
    | error e => rw [hc] at h; cases h
    | ok o =>
      rw [hc] at h
      simp only [Dict.keys, List.map_cons, List.mem_cons] at hw
      rcases hw with rfl | hw
      · rw [hc]; simp only [compOf, hc]
      · cases o with
        | none => exact ih h hw
        | some ls =>
          dsimp only at h
          cases hp : parseCompounds check stems predicators base R with
          | error e => rw [hp] at h; cases h
          | ok more => exact ih hp hw

/-- both extractors: the adjectives and verbs that this pass finds are given by two partial lemmatisations -/
structure CompoundStage (s : State) (f : Found) (s' : State) (f' : Found) (ca cv : Str → Option (List (Str × Str))) : Prop where
  adjectives : s'.adjectives = update s.adjectives (entriesOf f.eojeols ca)
  verbs : s'.verbs = update s.verbs (entriesOf f.eojeols cv)
  fA : f'.adjectives = cumulate f.adjectives (countsOf (entriesOf f.eojeols ca))
  fV : f'.verbs = cumulate f.verbs (countsOf (entriesOf f.eojeols cv))
  fN : f'.nouns = f.nouns
  fB : f'.adverbs = f.adverbs
  fJ : f'.josas = f.josas
  eojeols : f'.eojeols = removeRecognized f.eojeols (fun w => Dict.has f'.adjectives w || Dict.has f'.verbs w)
  josas : s'.josas = s.josas
  nouns : s'.nouns = s.nouns
  adverbs : s'.adverbs = s.adverbs
  eoj : s'.eojeols = s.eojeols

/-- the lemmatisations of `NewsPOSExtractor` -/
abbrev knownStem (s : State) (w : Str) : Bool := s.verbStems.contains w || s.adjectiveStems.contains w
abbrev predicator (s : State) (w : Str) : Bool := Dict.has s.adjectives w || Dict.has s.verbs w

theorem matchPredicatorCompounds_stage {s : State} {f : Found} {s' : State} {f' : Found} (h : matchPredicatorCompounds s f = .ok (s', f')) :
    ∃ ca cv, CompoundStage s f s' f' ca cv ∧ ca = compOf checkSuffixPrefix (knownStem s) (predicator s) s.adjectives ∧
      s'.adjectiveStems = s.adjectiveStems ++ stemsOf (entriesOf f.eojeols ca) ∧
      cv = compOf checkSuffixPrefix (fun w => s.verbStems.contains w || s'.adjectiveStems.contains w) (predicator s) s.verbs ∧
      s'.verbStems = s.verbStems ++ stemsOf (entriesOf f.eojeols cv) ∧ s'.eomis = s.eomis ∧
      ∀ w ∈ Dict.keys f.eojeols, compoundOf checkSuffixPrefix (knownStem s) (predicator s) s.adjectives w = .ok (ca w) ∧
        compoundOf checkSuffixPrefix (fun w => s.verbStems.contains w || s'.adjectiveStems.contains w) (predicator s) s.verbs w = .ok (cv w) := by
  unfold matchPredicatorCompounds at h
  dsimp only at h
  cases h1 : parseCompounds checkSuffixPrefix (fun w => s.verbStems.contains w || s.adjectiveStems.contains w)
    (fun w => Dict.has s.adjectives w || Dict.has s.verbs w) s.adjectives f.eojeols with
  | error e => rw [h1] at h; cases h
  | ok adj =>
    rw [h1] at h
    dsimp only at h
    cases h2 : parseCompounds checkSuffixPrefix (fun w => s.verbStems.contains w || (s.adjectiveStems ++ stemsOf adj).contains w)
      (fun w => Dict.has s.adjectives w || Dict.has s.verbs w) s.verbs f.eojeols with
    | error e => rw [h2] at h; cases h
    | ok verb =>
      rw [h2] at h
      cases h
      have e1 := parseCompounds_eq h1
      have e2 := parseCompounds_eq h2
      refine ⟨_, _, ⟨by rw [e1], by rw [e2], by rw [e1], by rw [e2], rfl, rfl, rfl, rfl, rfl, rfl, rfl, rfl⟩, rfl, ?_, rfl, ?_, rfl,
        fun w hw => ⟨parseCompounds_all h1 w hw, parseCompounds_all h2 w hw⟩⟩
      · dsimp only; rw [e1]
      · dsimp only; rw [e2]

/-! ### lemmatised predicators -/

theorem lemmatizeAll_eq (stems eomis : List Str) (R : Dict Str Nat) : lemmatizeAll stems eomis R = entriesOf R (lemmatize stems eomis) := rfl

theorem filter_has_entries (R : Dict Str Nat) (comp : Str → Option (List (Str × Str))) :
    R.filter (fun e => Dict.has (entriesOf R comp) e.1) = R.filter (fun e => (comp e.1).isSome) := by
  apply List.filter_congr
  intro e he
  rw [Bool.eq_iff_iff, has_iff, mem_keys_entries]
  exact ⟨fun h => h.2, fun h => ⟨List.mem_map.2 ⟨e, he, rfl⟩, h⟩⟩

theorem lemmatizing_stage (s : State) (f : Found) :
    let sf := lemmatizingPredicators s f
    let la := lemmatize s.adjectiveStems s.eomis
    let lv := lemmatize s.verbStems s.eomis
    sf.1 = { s with adjectives := update s.adjectives (entriesOf f.eojeols la), verbs := update s.verbs (entriesOf f.eojeols lv) } ∧
    sf.2.adjectives = cumulate f.adjectives (f.eojeols.filter (fun e => (la e.1).isSome)) ∧
    sf.2.verbs = cumulate f.verbs (f.eojeols.filter (fun e => (lv e.1).isSome)) ∧
    sf.2.eojeols = removeRecognized f.eojeols (fun w => (la w).isSome || (lv w).isSome) ∧
    sf.2.nouns = f.nouns ∧ sf.2.adverbs = f.adverbs ∧ sf.2.josas = f.josas := by
  unfold lemmatizingPredicators
  dsimp only
  rw [lemmatizeAll_eq, lemmatizeAll_eq]
  refine ⟨rfl, by rw [filter_has_entries], by rw [filter_has_entries], ?_, rfl, rfl, rfl⟩
  rw [filter_has_entries, filter_has_entries]
  unfold removeRecognized
  rw [List.filter_filter]
  apply List.filter_congr
  intro e he
  have hk : e.1 ∈ Dict.keys f.eojeols := List.mem_map.2 ⟨e, he, rfl⟩
  have : ∀ p : Str → Bool, Dict.has (f.eojeols.filter (fun e => p e.1)) e.1 = p e.1 := by
    intro p; rw [Bool.eq_iff_iff, has_iff, mem_keys_filter]; simp [hk]
  rw [this (fun w => (lemmatize s.adjectiveStems s.eomis w).isSome), this (fun w => (lemmatize s.verbStems s.eomis w).isSome), Bool.not_or,
    Bool.and_comm]

/-! ### one-syllable nouns -/

theorem has_add (d : Dict Str Nat) (k : Str) (n : Nat) (h : Dict.has d k = true) : Dict.has (Dict.add d k n) = Dict.has d := by
  funext w
  rw [Bool.eq_iff_iff, has_iff, has_iff, Dict.mem_keys_set]
  exact ⟨fun h' => by rcases h' with rfl | h'; exacts [(has_iff _ _).1 h, h'], Or.inr⟩

/-- the one-syllable reading -/
def syl (r : Str → Bool) (g : Str → Str) (w : Str) : Option Str := if r (w.drop 1) then some (g w) else none

theorem syllable_eq (R N rc : Dict Str Nat) (rem : List Str) :
    syllableNounAndR R (N, rc, rem) =
      (cumulate N (credit R (syl (Dict.has rc) (·.take 1))), cumulate rc (credit R (syl (Dict.has rc) (·.drop 1))),
        rem ++ (Dict.keys R).filter (fun w => Dict.has rc (w.drop 1))) := by
  have key : ∀ (R N rc : Dict Str Nat) (rem : List Str) (h : Str → Bool), Dict.has rc = h →
    R.foldl (fun a e => if Dict.has a.2.1 (e.1.drop 1) then (Dict.add a.1 (e.1.take 1) e.2, Dict.add a.2.1 (e.1.drop 1) e.2, a.2.2 ++ [e.1]) else a)
      (N, rc, rem) =
      (cumulate N (credit R (syl h (·.take 1))), cumulate rc (credit R (syl h (·.drop 1))), rem ++ (Dict.keys R).filter (fun w => h (w.drop 1))) := by
    intro R
    induction R with
    | nil => intro N rc rem h _; simp [credit, cumulate]
    | cons x R ih =>
      intro N rc rem h hr
      rw [List.foldl_cons]
      dsimp only
      by_cases hx : Dict.has rc (x.1.drop 1) = true
      · rw [if_pos hx, ih _ _ _ h (by rw [has_add _ _ _ hx, hr])]
        rw [hr] at hx
        simp only [credit, syl, cumulate, List.filterMap_cons, hx, if_true, Option.map_some, List.foldl_cons, Dict.keys, List.map_cons,
          List.filter_cons, List.append_assoc, List.singleton_append]
      · rw [if_neg hx, ih _ _ _ h hr]
        rw [hr] at hx
        simp only [credit, syl, cumulate, List.filterMap_cons, hx, Option.map_none, Dict.keys, List.map_cons, List.filter_cons,
          Bool.false_eq_true, if_false]
  exact key R N rc rem _ rfl

theorem has_cumulate_syl (R rc : Dict Str Nat) : Dict.has (cumulate rc (credit R (syl (Dict.has rc) (·.drop 1)))) = Dict.has rc := by
  funext w
  rw [Bool.eq_iff_iff, has_iff, has_iff, mem_keys_cumulate, mem_keys_credit]
  refine ⟨fun h => ?_, Or.inl⟩
  rcases h with h | ⟨e, _, h⟩
  · exact h
  · unfold syl at h
    split at h
    · cases h; rename_i h; exact (has_iff _ _).1 h
    · cases h

/-- read as one syllable + adjective, verb or particle -/
def sylRead (f : Found) (w : Str) : Bool := Dict.has f.adjectives (w.drop 1) || Dict.has f.verbs (w.drop 1) || Dict.has f.josas (w.drop 1)

theorem syllable_stage (f : Found) :
    let f' := matchSyllableNounAndR f
    f'.nouns = cumulate (cumulate (cumulate f.nouns (credit f.eojeols (syl (Dict.has f.adjectives) (·.take 1))))
      (credit f.eojeols (syl (Dict.has f.verbs) (·.take 1)))) (credit f.eojeols (syl (Dict.has f.josas) (·.take 1))) ∧
    f'.adjectives = cumulate f.adjectives (credit f.eojeols (syl (Dict.has f.adjectives) (·.drop 1))) ∧
    f'.verbs = cumulate f.verbs (credit f.eojeols (syl (Dict.has f.verbs) (·.drop 1))) ∧
    f'.josas = cumulate f.josas (credit f.eojeols (syl (Dict.has f.josas) (·.drop 1))) ∧
    f'.eojeols = removeRecognized f.eojeols (sylRead f) ∧ f'.adverbs = f.adverbs := by
  unfold matchSyllableNounAndR
  simp only [syllable_eq]
  refine ⟨trivial, trivial, trivial, trivial, ?_, trivial⟩
  unfold removeRecognized
  apply List.filter_congr
  intro e he
  have hk : e.1 ∈ Dict.keys f.eojeols := List.mem_map.2 ⟨e, he, rfl⟩
  congr 1
  rw [Bool.eq_iff_iff, List.contains_iff_mem]
  simp only [List.nil_append, List.mem_append, List.mem_filter, hk, true_and, sylRead, Bool.or_eq_true]

/-! ### compound nouns -/

/-- the noun that an eojeol is a compound of -/
def nounOf (nouns : Dict Str Nat) (suffix : Str → Bool) (w : Str) : Option Str :=
  match compoundTokens nouns w with
  | .error _ => none
  | .ok tokens =>
    match parseCompound suffix tokens with
    | .ok o => o
    | .error _ => none

theorem compoundNouns_eq {nouns : Dict Str Nat} {suffix : Str → Bool} {R : Dict Str Nat} {cs : List (Str × Nat × Str)}
    (h : compoundNouns nouns suffix R = .ok cs) : cs = R.filterMap (fun e => (nounOf nouns suffix e.1).map (fun n => (e.1, e.2, n))) := by
  induction R generalizing cs with
  | nil => simp only [compoundNouns, Except.ok.injEq] at h; subst h; rfl
  | cons x R ih =>
    obtain ⟨a, b⟩ := x
    simp only [compoundNouns] at h
    simp only [List.filterMap_cons]
    cases hc : compoundTokens nouns a with
    | error e => rw [hc] at h; cases h
    | ok toks =>
      rw [hc] at h
      dsimp only at h
      cases hp : parseCompound suffix toks with
      | error e => rw [hp] at h; cases h
      | ok o =>
        rw [hp] at h
        dsimp only at h
        have hn : nounOf nouns suffix a = o := by simp only [nounOf, hc, hp]
        rw [hn]
        cases hm : compoundNouns nouns suffix R with
        | error e => rw [hm] at h; cases h
        | ok more =>
          rw [hm] at h
          cases h
          rw [ih hm]
          cases o <;> rfl

/-- what may end a compound -/
abbrev suffixOf (f : Found) (w : Str) : Bool := Dict.has f.nouns w || Dict.has f.adjectives w || Dict.has f.verbs w || Dict.has f.josas w

theorem compound_stage {f f' : Found} (h : matchCompoundNouns f = .ok f') :
    f' = { f with nouns := cumulate f.nouns (cumulate [] (credit f.eojeols (nounOf f.nouns (suffixOf f)))),
                  eojeols := removeRecognized f.eojeols (fun w => (nounOf f.nouns (suffixOf f) w).isSome) } := by
  unfold matchCompoundNouns at h
  dsimp only at h
  cases hc : compoundNouns f.nouns (suffixOf f) f.eojeols with
  | error e => rw [hc] at h; cases h
  | ok cs =>
    rw [hc] at h
    cases h
    have e := compoundNouns_eq hc
    have e1 : cs.map (fun c => (c.2.2, c.2.1)) = credit f.eojeols (nounOf f.nouns (suffixOf f)) := by
      rw [e, List.map_filterMap]
      apply List.filterMap_congr
      intro x _
      cases nounOf f.nouns (suffixOf f) x.1 <;> rfl
    have e2 : removeRecognized f.eojeols (fun w => (cs.map (·.1)).contains w) =
        removeRecognized f.eojeols (fun w => (nounOf f.nouns (suffixOf f) w).isSome) := by
      unfold removeRecognized
      apply List.filter_congr
      intro x hx
      congr 1
      rw [Bool.eq_iff_iff, List.contains_iff_mem, e]
      simp only [List.mem_map, List.mem_filterMap]
      constructor
      · rintro ⟨c, ⟨y, hy, hc⟩, e⟩
        cases hn : nounOf f.nouns (suffixOf f) y.1 with
        | none => rw [hn] at hc; cases hc
        | some n => rw [hn] at hc; cases hc; dsimp only at e; rw [← e, hn]; rfl
      · intro hn
        obtain ⟨n, hn⟩ := Option.isSome_iff_exists.1 hn
        exact ⟨(x.1, x.2, n), ⟨x, hx, by rw [hn]; rfl⟩, rfl⟩
    rw [e1, e2]

/-! ### the invariant on the counters -/

theorem mass_removed {E R : Dict Str Nat} (hs : R = E.filter (fun e => Dict.has R e.1)) (rem P : Str → Bool) :
    mass E (fun e => !Dict.has (removeRecognized R rem) e && P e) = mass E (fun e => !Dict.has R e && P e) + mass R (fun e => rem e && P e) := by
  have h1 : mass R (fun e => rem e && P e) = mass E (fun e => Dict.has R e && (rem e && P e)) := by
    have := mass_filter E (fun e => rem e && P e) (Dict.has R)
    rw [← this, ← hs]
  rw [h1, ← mass_or (by intro e _; cases Dict.has R e <;> simp)]
  apply mass_congr
  intro e _
  have : Dict.has (removeRecognized R rem) e = (Dict.has R e && !rem e) := by
    rw [Bool.eq_iff_iff, has_iff, mem_keys_removeRecognized, Bool.and_eq_true, has_iff]; simp
  rw [this]
  cases Dict.has R e <;> cases rem e <;> cases P e <;> rfl

theorem sub_removeRecognized {E R : Dict Str Nat} (hs : R = E.filter (fun e => Dict.has R e.1)) (rem : Str → Bool) :
    removeRecognized R rem = E.filter (fun e => Dict.has (removeRecognized R rem) e.1) := by
  have : removeRecognized R rem = E.filter (fun e => Dict.has R e.1 && !rem e.1) := by
    conv_lhs => rw [hs]
    exact removeRecognized_filter E (Dict.has R) rem
  rw [this]
  exact (filter_has_self E (fun w => Dict.has R w && !rem w)).symm

/-- every counter is bounded by the frequencies of the eojeols already recognised; `K` is the factor of the nouns -/
structure Inv (E : Dict Str Nat) (nouns : List Str) (f : Found) : Prop where
  sub : f.eojeols = E.filter (fun e => Dict.has f.eojeols e.1)
  wfN : Dict.WF f.nouns
  wfA : Dict.WF f.adjectives
  wfV : Dict.WF f.verbs
  upN : ∀ w, Dict.getD f.nouns w 0 ≤ 3 * mass E (fun e => !Dict.has f.eojeols e && decide (w <+: e))
  upA : ∀ w, Dict.getD f.adjectives w 0 ≤ mass E (fun e => !Dict.has f.eojeols e && decide (w <:+ e))
  upV : ∀ w, Dict.getD f.verbs w 0 ≤ mass E (fun e => !Dict.has f.eojeols e && decide (w <:+ e))
  lowN : ∀ w, w ∈ nouns → Dict.getD E w 0 ≤ Dict.getD f.nouns w 0
  lowA : ∀ w, w ∈ Dict.keys f.adjectives → Dict.getD E w 0 ≤ Dict.getD f.adjectives w 0
  lowV : ∀ w, w ∈ Dict.keys f.verbs → Dict.getD E w 0 ≤ Dict.getD f.verbs w 0

theorem mass_credit_le {R : Dict Str Nat} {g : Str → Option Str} {rem P : Str → Bool} {w : Str}
    (h : ∀ e, e ∈ Dict.keys R → g e = some w → rem e = true ∧ P e = true) :
    mass (credit R g) (fun e => decide (e = w)) ≤ mass R (fun e => rem e && P e) := by
  rw [mass_credit]
  apply mass_le
  intro e he hg
  have := h e he (by simpa using hg)
  simp [this.1, this.2]

theorem sub_wf {E R : Dict Str Nat} (hE : Dict.WF E) (hs : R = E.filter (fun e => Dict.has R e.1)) : Dict.WF R := by
  rw [hs]; exact hE.filter _

theorem getD_filter {E : Dict Str Nat} (hE : Dict.WF E) (p : Str → Bool) (w : Str) :
    Dict.getD (E.filter (fun e => p e.1)) w 0 = if p w then Dict.getD E w 0 else 0 := by
  unfold Dict.getD
  rw [Dict.get?_filter hE]
  cases Dict.get? E w <;> cases h : p w <;> simp [Option.filter, h]

/-- a pass that adds the lemmatised eojeols to a counter -/
theorem up_entries {E R : Dict Str Nat} (hs : R = E.filter (fun e => Dict.has R e.1)) {A : Dict Str Nat} {p rem : Str → Bool}
    (hrem : ∀ w, w ∈ Dict.keys R → p w = true → rem w = true) (w : Str)
    (up : Dict.getD A w 0 ≤ mass E (fun e => !Dict.has R e && decide (w <:+ e))) :
    Dict.getD (cumulate A (R.filter (fun e => p e.1))) w 0 ≤ mass E (fun e => !Dict.has (removeRecognized R rem) e && decide (w <:+ e)) := by
  rw [getD_cumulate, mass_removed hs rem]
  have : mass (R.filter (fun e => p e.1)) (fun e => decide (e = w)) ≤ mass R (fun e => rem e && decide (w <:+ e)) := by
    rw [mass_filter]
    apply mass_le
    intro e he h
    simp only [Bool.and_eq_true, decide_eq_true_eq] at h
    obtain ⟨h1, rfl⟩ := h
    rw [hrem e he h1]; simp
  omega

theorem low_entries {E R : Dict Str Nat} (hE : Dict.WF E) (hs : R = E.filter (fun e => Dict.has R e.1)) {A : Dict Str Nat} {p : Str → Bool}
    (low : ∀ w, w ∈ Dict.keys A → Dict.getD E w 0 ≤ Dict.getD A w 0) (w : Str) (hw : w ∈ Dict.keys (cumulate A (R.filter (fun e => p e.1)))) :
    Dict.getD E w 0 ≤ Dict.getD (cumulate A (R.filter (fun e => p e.1))) w 0 := by
  have hR := sub_wf hE hs
  rw [getD_cumulate_dict _ (hR.filter _)]
  rcases (mem_keys_cumulate _ _ _).1 hw with h | h
  · have := low w h; omega
  · rw [mem_keys_filter] at h
    rw [getD_filter hR, if_pos h.2]
    have : Dict.getD R w 0 = Dict.getD E w 0 := by
      conv_lhs => rw [hs]
      rw [getD_filter hE, if_pos ((has_iff _ _).2 h.1)]
    omega

theorem mono_cumulate (d : Dict Str Nat) (wc : List (Str × Nat)) (w : Str) : Dict.getD d w 0 ≤ Dict.getD (cumulate d wc) w 0 := by
  rw [getD_cumulate]; omega

theorem inv_matchWord {s : State} (hE : Dict.WF s.eojeols) : Inv s.eojeols s.nouns (matchWord s) := by
  have hsub : (matchWord s).eojeols = s.eojeols.filter (fun e => Dict.has (matchWord s).eojeols e.1) := by
    rw [matchWord_eojeols]; exact (filter_has_self _ (fun w => !known s w)).symm
  have hh : ∀ w, Dict.has (matchWord s).eojeols w = (Dict.has s.eojeols w && !known s w) := by
    intro w
    rw [matchWord_eojeols, Bool.eq_iff_iff, has_iff, mem_keys_filter _ (fun w => !known s w), Bool.and_eq_true, has_iff]
  have up : ∀ (p : Str → Bool) (Q : Str → Str → Bool) (hp : ∀ w, p w = true → known s w = true) (hQ : ∀ w, Q w w = true) (w : Str),
      Dict.getD (s.eojeols.filter (fun e => p e.1)) w 0 ≤ mass s.eojeols (fun e => !Dict.has (matchWord s).eojeols e && Q w e) := by
    intro p Q hp hQ w
    rw [getD_filter hE]
    split
    · rename_i h
      rw [← mass_single hE]
      apply mass_le
      intro e he h'
      simp only [decide_eq_true_eq] at h'
      subst h'
      rw [hh, hp _ h, hQ]; simp
    · omega
  have low : ∀ (p : Str → Bool) (w : Str), w ∈ Dict.keys (s.eojeols.filter (fun e => p e.1)) →
      Dict.getD s.eojeols w 0 ≤ Dict.getD (s.eojeols.filter (fun e => p e.1)) w 0 := by
    intro p w hw
    rw [mem_keys_filter] at hw
    rw [getD_filter hE, if_pos hw.2]
  have hk : ∀ w, known s w = (s.nouns.contains w || Dict.has s.adjectives w || Dict.has s.verbs w || s.adverbs.contains w) := fun _ => rfl
  refine ⟨hsub, hE.filter _, hE.filter _, hE.filter _, ?_, ?_, ?_, ?_, ?_, ?_⟩
  · intro w
    have := up (fun w => s.nouns.contains w) (fun w e => decide (w <+: e)) (fun w h => by rw [hk, h]; rfl) (fun w => by simp) w
    have h2 : Dict.getD (matchWord s).nouns w 0 = Dict.getD (s.eojeols.filter (fun e => s.nouns.contains e.1)) w 0 := rfl
    rw [h2]; omega
  · exact up (fun w => Dict.has s.adjectives w) (fun w e => decide (w <:+ e)) (fun w h => by rw [hk, h]; simp) (fun w => by simp)
  · exact up (fun w => Dict.has s.verbs w) (fun w e => decide (w <:+ e)) (fun w h => by rw [hk, h]; simp) (fun w => by simp)
  · intro w hw
    show _ ≤ Dict.getD (s.eojeols.filter (fun e => s.nouns.contains e.1)) w 0
    rw [getD_filter hE, if_pos (by simpa using hw)]
  · exact low (fun w => Dict.has s.adjectives w)
  · exact low (fun w => Dict.has s.verbs w)

theorem sep_facts {w : Str} {L R : Str → Bool} {g : Str × Str → Str} {v : Str} (h : (separateLR w L R).map g = some v) :
    ∃ lr, separateLR w L R = some lr ∧ g lr = v := by
  cases hs : separateLR w L R with
  | none => rw [hs] at h; cases h
  | some lr => rw [hs] at h; cases h; exact ⟨lr, rfl, rfl⟩

theorem inv_nounAndWord {E : Dict Str Nat} {s : State} {ns : List Str} {f : Found} (h : Inv E ns f) :
    Inv E ns (matchNounAndWord s f) := by
  have cN : ∀ (rset : Str → Bool) (hr : ∀ w, (sepOf f rset w).isSome = true → nounRead s f w = true) (w : Str),
      mass (credit f.eojeols (fun w => (sepOf f rset w).map (·.1))) (fun e => decide (e = w)) ≤
        mass f.eojeols (fun e => nounRead s f e && decide (w <+: e)) := by
    intro rset hr w
    apply mass_credit_le
    intro e he hg
    obtain ⟨lr, h1, h2⟩ := sep_facts hg
    refine ⟨hr e (by simp only [sepOf]; rw [h1]; rfl), ?_⟩
    have := (separateLR_some h1).1
    rw [decide_eq_true_eq, this, ← h2]; exact List.prefix_append _ _
  have cR : ∀ (rset : Str → Bool) (hr : ∀ w, (sepOf f rset w).isSome = true → nounRead s f w = true) (w : Str),
      mass (credit f.eojeols (fun w => (sepOf f rset w).map (·.2))) (fun e => decide (e = w)) ≤
        mass f.eojeols (fun e => nounRead s f e && decide (w <:+ e)) := by
    intro rset hr w
    apply mass_credit_le
    intro e he hg
    obtain ⟨lr, h1, h2⟩ := sep_facts hg
    refine ⟨hr e (by simp only [sepOf]; rw [h1]; rfl), ?_⟩
    have := (separateLR_some h1).1
    rw [decide_eq_true_eq, this, ← h2]; exact List.suffix_append _ _
  have r1 : ∀ w, (sepOf f (fun r => s.josas.contains r) w).isSome = true → nounRead s f w = true := by
    intro w h; unfold nounRead; rw [h]; rfl
  have r2 : ∀ w, (sepOf f (Dict.has f.adjectives) w).isSome = true → nounRead s f w = true := by
    intro w h; unfold nounRead; rw [h]; simp
  have r3 : ∀ w, (sepOf f (Dict.has f.verbs) w).isSome = true → nounRead s f w = true := by
    intro w h; unfold nounRead; rw [h]; simp
  refine ⟨?_, ?_, ?_, ?_, ?_, ?_, ?_, ?_, ?_, ?_⟩
  · rw [nounAndWord_eojeols]; exact sub_removeRecognized h.sub _
  · rw [nounAndWord_nouns]; exact wf_cumulate (wf_cumulate (wf_cumulate h.wfN _) _) _
  · rw [nounAndWord_adjectives]; exact wf_cumulate h.wfA _
  · rw [nounAndWord_verbs]; exact wf_cumulate h.wfV _
  · intro w
    rw [nounAndWord_nouns, nounAndWord_eojeols, getD_cumulate, getD_cumulate, getD_cumulate, mass_removed h.sub]
    have := h.upN w
    have := cN _ r1 w
    have := cN _ r2 w
    have := cN _ r3 w
    omega
  · intro w
    rw [nounAndWord_adjectives, nounAndWord_eojeols, getD_cumulate, mass_removed h.sub]
    have := h.upA w
    have := cR _ r2 w
    omega
  · intro w
    rw [nounAndWord_verbs, nounAndWord_eojeols, getD_cumulate, mass_removed h.sub]
    have := h.upV w
    have := cR _ r3 w
    omega
  · intro w hw
    rw [nounAndWord_nouns]
    exact ((h.lowN w hw).trans (mono_cumulate _ _ _)).trans ((mono_cumulate _ _ _).trans (mono_cumulate _ _ _))
  · intro w hw
    have h1 : w ∈ Dict.keys f.adjectives := by rw [← has_iff, ← has_nounAndWord_adjectives s f, has_iff]; exact hw
    rw [nounAndWord_adjectives]
    exact (h.lowA w h1).trans (mono_cumulate _ _ _)
  · intro w hw
    have h1 : w ∈ Dict.keys f.verbs := by rw [← has_iff, ← has_nounAndWord_verbs s f, has_iff]; exact hw
    rw [nounAndWord_verbs]
    exact (h.lowV w h1).trans (mono_cumulate _ _ _)

theorem mass_mono_rem {E R : Dict Str Nat} (hs : R = E.filter (fun e => Dict.has R e.1)) (rem P : Str → Bool) :
    mass E (fun e => !Dict.has R e && P e) ≤ mass E (fun e => !Dict.has (removeRecognized R rem) e && P e) := by
  rw [mass_removed hs]; omega

theorem inv_compounds {E : Dict Str Nat} (hE : Dict.WF E) {s s' : State} {ns : List Str} {f f' : Found} {ca cv : Str → Option (List (Str × Str))}
    (st : CompoundStage s f s' f' ca cv) (h : Inv E ns f) : Inv E ns f' := by
  have eA : f'.adjectives = cumulate f.adjectives (f.eojeols.filter (fun e => (ca e.1).isSome)) := by rw [st.fA, countsOf_entries]
  have eV : f'.verbs = cumulate f.verbs (f.eojeols.filter (fun e => (cv e.1).isSome)) := by rw [st.fV, countsOf_entries]
  have kA : ∀ w, w ∈ Dict.keys f.eojeols → (ca w).isSome = true → (Dict.has f'.adjectives w || Dict.has f'.verbs w) = true := by
    intro w hw hc
    have : w ∈ Dict.keys f'.adjectives := by
      rw [eA, mem_keys_cumulate, mem_keys_filter _ (fun w => (ca w).isSome)]; exact Or.inr ⟨hw, hc⟩
    rw [(has_iff _ _).2 this]; rfl
  have kV : ∀ w, w ∈ Dict.keys f.eojeols → (cv w).isSome = true → (Dict.has f'.adjectives w || Dict.has f'.verbs w) = true := by
    intro w hw hc
    have : w ∈ Dict.keys f'.verbs := by
      rw [eV, mem_keys_cumulate, mem_keys_filter _ (fun w => (cv w).isSome)]; exact Or.inr ⟨hw, hc⟩
    rw [(has_iff _ _).2 this]; simp
  refine ⟨?_, ?_, ?_, ?_, ?_, ?_, ?_, ?_, ?_, ?_⟩
  · rw [st.eojeols]; exact sub_removeRecognized h.sub _
  · rw [st.fN]; exact h.wfN
  · rw [eA]; exact wf_cumulate h.wfA _
  · rw [eV]; exact wf_cumulate h.wfV _
  · intro w
    have h1 := h.upN w
    have := mass_mono_rem h.sub (fun w => Dict.has f'.adjectives w || Dict.has f'.verbs w) (fun e => decide (w <+: e))
    rw [st.fN, st.eojeols]
    omega
  · intro w
    have := up_entries (p := fun w => (ca w).isSome) h.sub kA w (h.upA w)
    rw [← eA, ← st.eojeols] at this; exact this
  · intro w
    have := up_entries (p := fun w => (cv w).isSome) h.sub kV w (h.upV w)
    rw [← eV, ← st.eojeols] at this; exact this
  · rw [st.fN]; exact h.lowN
  · rw [eA]; exact low_entries (p := fun w => (ca w).isSome) hE h.sub h.lowA
  · rw [eV]; exact low_entries (p := fun w => (cv w).isSome) hE h.sub h.lowV

theorem inv_lemmatizing {E : Dict Str Nat} (hE : Dict.WF E) {s : State} {ns : List Str} {f : Found} (h : Inv E ns f) :
    Inv E ns (lemmatizingPredicators s f).2 := by
  obtain ⟨_, eA, eV, eE, eN, _, _⟩ := lemmatizing_stage s f
  generalize (lemmatizingPredicators s f).2 = f' at *
  generalize lemmatize s.adjectiveStems s.eomis = la at *
  generalize lemmatize s.verbStems s.eomis = lv at *
  refine ⟨?_, ?_, ?_, ?_, ?_, ?_, ?_, ?_, ?_, ?_⟩
  · rw [eE]; exact sub_removeRecognized h.sub _
  · rw [eN]; exact h.wfN
  · rw [eA]; exact wf_cumulate h.wfA _
  · rw [eV]; exact wf_cumulate h.wfV _
  · intro w
    have h1 := h.upN w
    have := mass_mono_rem h.sub (fun w => (la w).isSome || (lv w).isSome) (fun e => decide (w <+: e))
    rw [eN, eE]
    omega
  · intro w
    rw [eA, eE]
    exact up_entries (p := fun w => (la w).isSome) h.sub (fun w _ hw => by rw [hw]; rfl) w (h.upA w)
  · intro w
    rw [eV, eE]
    exact up_entries (p := fun w => (lv w).isSome) h.sub (fun w _ hw => by rw [hw]; simp) w (h.upV w)
  · rw [eN]; exact h.lowN
  · rw [eA]; exact low_entries (p := fun w => (la w).isSome) hE h.sub h.lowA
  · rw [eV]; exact low_entries (p := fun w => (lv w).isSome) hE h.sub h.lowV

theorem inv_syllable {E : Dict Str Nat} {ns : List Str} {f : Found} (h : Inv E ns f) : Inv E ns (matchSyllableNounAndR f) := by
  obtain ⟨eN, eA, eV, _, eE, _⟩ := syllable_stage f
  generalize matchSyllableNounAndR f = f' at *
  have cN : ∀ (r : Str → Bool) (hr : ∀ w, r (w.drop 1) = true → sylRead f w = true) (w : Str),
      mass (credit f.eojeols (syl r (·.take 1))) (fun e => decide (e = w)) ≤ mass f.eojeols (fun e => sylRead f e && decide (w <+: e)) := by
    intro r hr w
    apply mass_credit_le
    intro e he hg
    unfold syl at hg
    split at hg
    · rename_i hc; cases hg
      exact ⟨hr e hc, by rw [decide_eq_true_eq]; exact List.take_prefix _ _⟩
    · cases hg
  have cR : ∀ (r : Str → Bool) (hr : ∀ w, r (w.drop 1) = true → sylRead f w = true) (w : Str),
      mass (credit f.eojeols (syl r (·.drop 1))) (fun e => decide (e = w)) ≤ mass f.eojeols (fun e => sylRead f e && decide (w <:+ e)) := by
    intro r hr w
    apply mass_credit_le
    intro e he hg
    unfold syl at hg
    split at hg
    · rename_i hc; cases hg
      exact ⟨hr e hc, by rw [decide_eq_true_eq]; exact List.drop_suffix _ _⟩
    · cases hg
  have r1 : ∀ w, Dict.has f.adjectives (w.drop 1) = true → sylRead f w = true := by intro w h; unfold sylRead; rw [h]; rfl
  have r2 : ∀ w, Dict.has f.verbs (w.drop 1) = true → sylRead f w = true := by intro w h; unfold sylRead; rw [h]; simp
  have r3 : ∀ w, Dict.has f.josas (w.drop 1) = true → sylRead f w = true := by intro w h; unfold sylRead; rw [h]; simp
  refine ⟨?_, ?_, ?_, ?_, ?_, ?_, ?_, ?_, ?_, ?_⟩
  · rw [eE]; exact sub_removeRecognized h.sub _
  · rw [eN]; exact wf_cumulate (wf_cumulate (wf_cumulate h.wfN _) _) _
  · rw [eA]; exact wf_cumulate h.wfA _
  · rw [eV]; exact wf_cumulate h.wfV _
  · intro w
    rw [eN, eE, getD_cumulate, getD_cumulate, getD_cumulate, mass_removed h.sub]
    have := h.upN w
    have := cN _ r1 w
    have := cN _ r2 w
    have := cN _ r3 w
    omega
  · intro w
    rw [eA, eE, getD_cumulate, mass_removed h.sub]
    have := h.upA w
    have := cR _ r1 w
    omega
  · intro w
    rw [eV, eE, getD_cumulate, mass_removed h.sub]
    have := h.upV w
    have := cR _ r2 w
    omega
  · intro w hw
    rw [eN]
    exact ((h.lowN w hw).trans (mono_cumulate _ _ _)).trans ((mono_cumulate _ _ _).trans (mono_cumulate _ _ _))
  · intro w hw
    rw [eA] at hw ⊢
    have h1 : w ∈ Dict.keys f.adjectives := by rw [← has_iff, ← has_cumulate_syl f.eojeols f.adjectives, has_iff]; exact hw
    exact (h.lowA w h1).trans (mono_cumulate _ _ _)
  · intro w hw
    rw [eV] at hw ⊢
    have h1 : w ∈ Dict.keys f.verbs := by rw [← has_iff, ← has_cumulate_syl f.eojeols f.verbs, has_iff]; exact hw
    exact (h.lowV w h1).trans (mono_cumulate _ _ _)

/-- dropping eojeols without counting them keeps the invariant -/
theorem inv_drop {E : Dict Str Nat} {ns : List Str} {f : Found} (h : Inv E ns f) (rem : Str → Bool) :
    Inv E ns { f with eojeols := removeRecognized f.eojeols rem } := by
  refine ⟨sub_removeRecognized h.sub _, h.wfN, h.wfA, h.wfV, ?_, ?_, ?_, h.lowN, h.lowA, h.lowV⟩
  · intro w
    have := h.upN w
    have := mass_mono_rem h.sub rem (fun e => decide (w <+: e))
    dsimp only; omega
  · intro w
    exact (h.upA w).trans (mass_mono_rem h.sub rem (fun e => decide (w <:+ e)))
  · intro w
    exact (h.upV w).trans (mass_mono_rem h.sub rem (fun e => decide (w <:+ e)))

end NewsPos
