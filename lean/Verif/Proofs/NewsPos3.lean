import Verif.Proofs.NewsPos2
/-! What the passes before the compound nouns leave, for both POS extractors. -/
namespace NewsPos
open Py PosSpec

/-- an eojeol that is no known word and is not read as noun + particle, adjective or verb -/
def Free (s : State) (w : Str) : Prop := In s.eojeols w ∧ known s w = false ∧ nounRead s (matchWord s) w = false

instance (s : State) (w : Str) : Decidable (Free s w) := inferInstanceAs (Decidable (_ ∧ _ ∧ _))

/-- a particle that follows a noun in some eojeol -/
def Attested (s : State) (r : Str) : Prop :=
  ∃ e l, In s.eojeols e ∧ known s e = false ∧ separateLR e (Dict.has (matchWord s).nouns) (fun r => s.josas.contains r) = some (l, r)

theorem matchWord_keys (s : State) (w : Str) :
    (w ∈ Dict.keys (matchWord s).nouns ↔ Standing s w) ∧ (w ∈ Dict.keys (matchWord s).adjectives ↔ In s.eojeols w ∧ In s.adjectives w) ∧
    (w ∈ Dict.keys (matchWord s).verbs ↔ In s.eojeols w ∧ In s.verbs w) ∧ (w ∈ Dict.keys (matchWord s).eojeols ↔ In s.eojeols w ∧ known s w = false) := by
  refine ⟨?_, ?_, ?_, ?_⟩
  · show w ∈ Dict.keys (s.eojeols.filter (fun e => s.nouns.contains e.1)) ↔ _
    rw [mem_keys_filter _ (fun w => s.nouns.contains w), List.contains_iff_mem, and_comm]; rfl
  · show w ∈ Dict.keys (s.eojeols.filter (fun e => Dict.has s.adjectives e.1)) ↔ _
    rw [mem_keys_filter _ (fun w => Dict.has s.adjectives w), has_iff]
  · show w ∈ Dict.keys (s.eojeols.filter (fun e => Dict.has s.verbs e.1)) ↔ _
    rw [mem_keys_filter _ (fun w => Dict.has s.verbs w), has_iff]
  · rw [matchWord_eojeols, mem_keys_filter _ (fun w => !known s w)]; simp

theorem known_false {s : State} {w : Str} : known s w = false ↔ w ∉ s.nouns ∧ ¬ In s.adjectives w ∧ ¬ In s.verbs w ∧ w ∉ s.adverbs := by
  unfold known
  simp only [Bool.or_eq_false_iff, has_eq_false]
  constructor
  · rintro ⟨⟨⟨h1, h2⟩, h3⟩, h4⟩
    exact ⟨by simpa using h1, h2, h3, by simpa using h4⟩
  · rintro ⟨h1, h2, h3, h4⟩
    exact ⟨⟨⟨by simpa using h1, h2⟩, h3⟩, by simpa using h4⟩

/-- irregular eojeols -/
def irregular (s : State) (w : Str) : Bool := s.josas.contains w || s.eomis.contains w || decide (w.length = 1)

theorem removeIrregularWords_eq (s : State) (R : Dict Str Nat) : removeIrregularWords s R = removeRecognized R (irregular s) := rfl

/-- an eojeol that is left after the predicators were found -/
def leftover (s : State) (f : Found) (e : Str) : Bool :=
  !known s e && !nounRead s (matchWord s) e && !Dict.has f.adjectives e && !Dict.has f.verbs e

theorem mass_sub {E R : Dict Str Nat} (hs : R = E.filter (fun e => Dict.has R e.1)) (q p : Str → Bool) (h : ∀ e ∈ Dict.keys E, e ∈ Dict.keys R ↔ q e = true) :
    mass R p = mass E (fun e => q e && p e) := by
  have h1 : mass R p = mass E (fun e => Dict.has R e && p e) := by
    have := mass_filter E p (Dict.has R)
    rw [← this, ← hs]
  rw [h1]
  apply mass_congr
  intro e he
  have : Dict.has R e = q e := by rw [Bool.eq_iff_iff, has_iff]; exact h e he
  rw [this]

theorem mass_single_filter {R : Dict Str Nat} (h : Dict.WF R) (p : Str → Bool) (w : Str) :
    mass (R.filter (fun e => p e.1)) (fun e => decide (e = w)) = if p w then Dict.getD R w 0 else 0 := by
  rw [mass_single (h.filter _), getD_filter h]

structure Facts (s s' : State) (f : Found) (ca cv la lv : Str → Option (List (Str × Str))) : Prop where
  inv : Inv s.eojeols s.nouns f
  adverbs : f.adverbs = s.eojeols.filter (fun e => s.adverbs.contains e.1)
  keysA : ∀ w, w ∈ Dict.keys f.adjectives ↔ (In s.eojeols w ∧ In s.adjectives w) ∨
    Free s w ∧ ((ca w).isSome = true ∨ (ca w).isSome = false ∧ (cv w).isSome = false ∧ (la w).isSome = true)
  keysV : ∀ w, w ∈ Dict.keys f.verbs ↔ (In s.eojeols w ∧ In s.verbs w) ∨
    Free s w ∧ ((cv w).isSome = true ∨ (ca w).isSome = false ∧ (cv w).isSome = false ∧ (lv w).isSome = true)
  entryA : ∀ w, In s.eojeols w → Dict.get? s'.adjectives w = if In s.adjectives w then Dict.get? s.adjectives w else
    if Free s w then (Dict.get? s.eojeols w).bind (fun n => (if (ca w).isSome || (cv w).isSome then ca w else la w).map (fun ls => (n, ls))) else none
  entryV : ∀ w, In s.eojeols w → Dict.get? s'.verbs w = if In s.verbs w then Dict.get? s.verbs w else
    if Free s w then (Dict.get? s.eojeols w).bind (fun n => (if (ca w).isSome || (cv w).isSome then cv w else lv w).map (fun ls => (n, ls))) else none
  keysJ : ∀ r, r ∈ Dict.keys f.josas ↔ Attested s r
  keysN : ∀ w, w ∈ Dict.keys f.nouns ↔ Standing s w ∨
    ∃ e, Free s e ∧ e ∉ Dict.keys f.adjectives ∧ e ∉ Dict.keys f.verbs ∧ sylRead f e = true ∧ w = e.take 1
  eoj : ∀ w, w ∈ Dict.keys f.eojeols ↔ Free s w ∧ w ∉ Dict.keys f.adjectives ∧ w ∉ Dict.keys f.verbs ∧ sylRead f w = false ∧ irregular s' w = false
  cntA : ∀ w, w ∈ Dict.keys f.adjectives → Dict.getD f.adjectives w 0 = Dict.getD s.eojeols w 0 +
    mass s.eojeols (fun e => !known s e && decide ((sepOf (matchWord s) (Dict.has (matchWord s).adjectives) e).map (·.2) = some w)) +
    mass s.eojeols (fun e => leftover s f e && decide (e.drop 1 = w))
  cntV : ∀ w, w ∈ Dict.keys f.verbs → Dict.getD f.verbs w 0 = Dict.getD s.eojeols w 0 +
    mass s.eojeols (fun e => !known s e && decide ((sepOf (matchWord s) (Dict.has (matchWord s).verbs) e).map (·.2) = some w)) +
    mass s.eojeols (fun e => leftover s f e && decide (e.drop 1 = w))
  cntN : ∀ w, Dict.getD f.nouns w 0 = (if s.nouns.contains w then Dict.getD s.eojeols w 0 else 0) +
    (mass s.eojeols (fun e => !known s e && decide ((sepOf (matchWord s) (fun r => s.josas.contains r) e).map (·.1) = some w)) +
     mass s.eojeols (fun e => !known s e && decide ((sepOf (matchWord s) (Dict.has (matchWord s).adjectives) e).map (·.1) = some w)) +
     mass s.eojeols (fun e => !known s e && decide ((sepOf (matchWord s) (Dict.has (matchWord s).verbs) e).map (·.1) = some w))) +
    (mass s.eojeols (fun e => leftover s f e && (Dict.has f.adjectives (e.drop 1) && decide (e.take 1 = w))) +
     mass s.eojeols (fun e => leftover s f e && (Dict.has f.verbs (e.drop 1) && decide (e.take 1 = w))) +
     mass s.eojeols (fun e => leftover s f e && (Dict.has f.josas (e.drop 1) && decide (e.take 1 = w))))

theorem sylRead_congr {f f' : Found} (hA : Dict.has f.adjectives = Dict.has f'.adjectives) (hV : Dict.has f.verbs = Dict.has f'.verbs)
    (hJ : Dict.has f.josas = Dict.has f'.josas) : sylRead f = sylRead f' := by
  funext w; unfold sylRead; rw [hA, hV, hJ]

theorem syl_take_iff (r : Str → Bool) (e w : Str) : syl r (·.take 1) e = some w ↔ r (e.drop 1) = true ∧ w = e.take 1 := by
  unfold syl
  by_cases h : r (e.drop 1) = true
  · rw [if_pos h]
    exact ⟨fun h' => ⟨h, (Option.some.inj h').symm⟩, fun h' => by rw [h'.2]⟩
  · rw [if_neg h]
    exact ⟨fun h' => (by cases h'), fun h' => absurd h'.1 h⟩

theorem facts {s : State} (hE : Dict.WF s.eojeols) {s2 : State} {f2 : Found} {ca cv : Str → Option (List (Str × Str))}
    (st : CompoundStage s (matchNounAndWord s (matchWord s)) s2 f2 ca cv) :
    Facts s (lemmatizingPredicators s2 f2).1
      { matchSyllableNounAndR (lemmatizingPredicators s2 f2).2 with
        eojeols := removeIrregularWords (lemmatizingPredicators s2 f2).1 (matchSyllableNounAndR (lemmatizingPredicators s2 f2).2).eojeols }
      ca cv (lemmatize s2.adjectiveStems s2.eomis) (lemmatize s2.verbStems s2.eomis) := by
  have i1 := inv_nounAndWord (s := s) (inv_matchWord hE)
  have i2 := inv_compounds hE st i1
  have i3 := inv_lemmatizing (s := s2) hE i2
  have i4 := inv_syllable i3
  have k0 := matchWord_keys s
  -- the eojeols after the second pass
  have e1 : ∀ w, w ∈ Dict.keys (matchNounAndWord s (matchWord s)).eojeols ↔ Free s w := by
    intro w
    rw [nounAndWord_eojeols, mem_keys_removeRecognized, (k0 w).2.2.2]
    unfold Free; exact and_assoc
  have hA1 : ∀ w, w ∈ Dict.keys (matchNounAndWord s (matchWord s)).adjectives ↔ In s.eojeols w ∧ In s.adjectives w := by
    intro w; rw [← has_iff, has_nounAndWord_adjectives, has_iff]; exact (k0 w).2.1
  have hV1 : ∀ w, w ∈ Dict.keys (matchNounAndWord s (matchWord s)).verbs ↔ In s.eojeols w ∧ In s.verbs w := by
    intro w; rw [← has_iff, has_nounAndWord_verbs, has_iff]; exact (k0 w).2.2.1
  have hN1 : ∀ w, w ∈ Dict.keys (matchNounAndWord s (matchWord s)).nouns ↔ Standing s w := by
    intro w; rw [← has_iff, has_nounAndWord_nouns, has_iff]; exact (k0 w).1
  have hJ1 : ∀ r, r ∈ Dict.keys (matchNounAndWord s (matchWord s)).josas ↔ Attested s r := by
    intro r
    rw [nounAndWord_josas, mem_keys_cumulate, mem_keys_credit]
    simp only [Dict.keys, List.map_nil, List.not_mem_nil, false_or]
    constructor
    · rintro ⟨e, he, h⟩
      obtain ⟨lr, h1, h2⟩ := sep_facts h
      have := ((k0 e).2.2.2).1 he
      exact ⟨e, lr.1, this.1, this.2, by rw [h1, ← h2]⟩
    · rintro ⟨e, l, h1, h2, h3⟩
      exact ⟨e, ((k0 e).2.2.2).2 ⟨h1, h2⟩, by simp only [sepOf]; rw [h3]; rfl⟩
  have wf1 : Dict.WF (matchNounAndWord s (matchWord s)).eojeols := sub_wf hE i1.sub
  have wf0 : Dict.WF (matchWord s).eojeols := sub_wf hE (inv_matchWord hE).sub
  have sub0 : ∀ p, mass (matchWord s).eojeols p = mass s.eojeols (fun e => !known s e && p e) := fun p =>
    mass_sub (inv_matchWord hE).sub _ _ (fun e he => by rw [(k0 e).2.2.2]; simp [he])
  have cA1 : ∀ w, Dict.getD (matchNounAndWord s (matchWord s)).adjectives w 0 = (if Dict.has s.adjectives w then Dict.getD s.eojeols w 0 else 0) +
      mass s.eojeols (fun e => !known s e && decide ((sepOf (matchWord s) (Dict.has (matchWord s).adjectives) e).map (·.2) = some w)) := by
    intro w
    rw [nounAndWord_adjectives, getD_cumulate, mass_credit, sub0]
    exact congrArg (· + _) (getD_filter hE (fun w => Dict.has s.adjectives w) w)
  have cV1 : ∀ w, Dict.getD (matchNounAndWord s (matchWord s)).verbs w 0 = (if Dict.has s.verbs w then Dict.getD s.eojeols w 0 else 0) +
      mass s.eojeols (fun e => !known s e && decide ((sepOf (matchWord s) (Dict.has (matchWord s).verbs) e).map (·.2) = some w)) := by
    intro w
    rw [nounAndWord_verbs, getD_cumulate, mass_credit, sub0]
    exact congrArg (· + _) (getD_filter hE (fun w => Dict.has s.verbs w) w)
  have cN1 : ∀ w, Dict.getD (matchNounAndWord s (matchWord s)).nouns w 0 = (if s.nouns.contains w then Dict.getD s.eojeols w 0 else 0) +
    (mass s.eojeols (fun e => !known s e && decide ((sepOf (matchWord s) (fun r => s.josas.contains r) e).map (·.1) = some w)) +
     mass s.eojeols (fun e => !known s e && decide ((sepOf (matchWord s) (Dict.has (matchWord s).adjectives) e).map (·.1) = some w)) +
     mass s.eojeols (fun e => !known s e && decide ((sepOf (matchWord s) (Dict.has (matchWord s).verbs) e).map (·.1) = some w))) := by
    intro w
    rw [nounAndWord_nouns, getD_cumulate, getD_cumulate, getD_cumulate, mass_credit, mass_credit, mass_credit, sub0, sub0, sub0]
    have : Dict.getD (matchWord s).nouns w 0 = if s.nouns.contains w then Dict.getD s.eojeols w 0 else 0 :=
      getD_filter hE (fun w => s.nouns.contains w) w
    rw [this]; omega
  generalize hf1 : matchNounAndWord s (matchWord s) = f1 at *
  have freeN : ∀ w, Free s w → ¬ In s.adjectives w ∧ ¬ In s.verbs w := fun w h => ⟨(known_false.1 h.2.1).2.1, (known_false.1 h.2.1).2.2.1⟩
  -- third pass
  have hA2 : ∀ w, w ∈ Dict.keys f2.adjectives ↔ (In s.eojeols w ∧ In s.adjectives w) ∨ Free s w ∧ (ca w).isSome = true := by
    intro w; rw [st.fA, countsOf_entries, mem_keys_cumulate, mem_keys_filter _ (fun w => (ca w).isSome), hA1, e1]
  have hV2 : ∀ w, w ∈ Dict.keys f2.verbs ↔ (In s.eojeols w ∧ In s.verbs w) ∨ Free s w ∧ (cv w).isSome = true := by
    intro w; rw [st.fV, countsOf_entries, mem_keys_cumulate, mem_keys_filter _ (fun w => (cv w).isSome), hV1, e1]
  have e2 : ∀ w, w ∈ Dict.keys f2.eojeols ↔ Free s w ∧ (ca w).isSome = false ∧ (cv w).isSome = false := by
    intro w
    rw [st.eojeols, mem_keys_removeRecognized, e1, Bool.or_eq_false_iff, has_eq_false, has_eq_false, hA2, hV2]
    constructor
    · rintro ⟨h1, h2, h3⟩
      exact ⟨h1, by rw [← Bool.not_eq_true]; exact fun h => h2 (Or.inr ⟨h1, h⟩), by rw [← Bool.not_eq_true]; exact fun h => h3 (Or.inr ⟨h1, h⟩)⟩
    · rintro ⟨h1, h2, h3⟩
      refine ⟨h1, ?_, ?_⟩
      · rintro (h | h)
        · exact (freeN w h1).1 h.2
        · rw [h2] at h; exact absurd h.2 (by simp)
      · rintro (h | h)
        · exact (freeN w h1).2 h.2
        · rw [h3] at h; exact absurd h.2 (by simp)
  -- fourth pass
  obtain ⟨eS, eA, eV, eE, eN, eB, eJ⟩ := lemmatizing_stage s2 f2
  have hA3 : ∀ w, w ∈ Dict.keys (lemmatizingPredicators s2 f2).2.adjectives ↔ (In s.eojeols w ∧ In s.adjectives w) ∨
      Free s w ∧ ((ca w).isSome = true ∨ (ca w).isSome = false ∧ (cv w).isSome = false ∧ (lemmatize s2.adjectiveStems s2.eomis w).isSome = true) := by
    intro w
    rw [eA, mem_keys_cumulate, hA2, mem_keys_filter _ (fun w => (lemmatize s2.adjectiveStems s2.eomis w).isSome), e2]
    tauto
  have hV3 : ∀ w, w ∈ Dict.keys (lemmatizingPredicators s2 f2).2.verbs ↔ (In s.eojeols w ∧ In s.verbs w) ∨
      Free s w ∧ ((cv w).isSome = true ∨ (ca w).isSome = false ∧ (cv w).isSome = false ∧ (lemmatize s2.verbStems s2.eomis w).isSome = true) := by
    intro w
    rw [eV, mem_keys_cumulate, hV2, mem_keys_filter _ (fun w => (lemmatize s2.verbStems s2.eomis w).isSome), e2]
    tauto
  have e3 : ∀ w, w ∈ Dict.keys (lemmatizingPredicators s2 f2).2.eojeols ↔ Free s w ∧
      w ∉ Dict.keys (lemmatizingPredicators s2 f2).2.adjectives ∧ w ∉ Dict.keys (lemmatizingPredicators s2 f2).2.verbs := by
    intro w
    rw [eE, mem_keys_removeRecognized, e2, Bool.or_eq_false_iff, hA3, hV3]
    simp only [← Bool.not_eq_true]
    constructor
    · rintro ⟨⟨h1, h2, h3⟩, h4, h5⟩
      have := freeN w h1
      exact ⟨h1, by tauto, by tauto⟩
    · rintro ⟨h1, h2, h3⟩
      tauto
  -- fifth pass
  obtain ⟨yN, yA, yV, yJ, yE, yB⟩ := syllable_stage (lemmatizingPredicators s2 f2).2
  have gA : Dict.has (matchSyllableNounAndR (lemmatizingPredicators s2 f2).2).adjectives = Dict.has (lemmatizingPredicators s2 f2).2.adjectives := by
    rw [yA]; exact has_cumulate_syl _ _
  have gV : Dict.has (matchSyllableNounAndR (lemmatizingPredicators s2 f2).2).verbs = Dict.has (lemmatizingPredicators s2 f2).2.verbs := by
    rw [yV]; exact has_cumulate_syl _ _
  have gJ : Dict.has (matchSyllableNounAndR (lemmatizingPredicators s2 f2).2).josas = Dict.has (lemmatizingPredicators s2 f2).2.josas := by
    rw [yJ]; exact has_cumulate_syl _ _
  have mA : ∀ w, w ∈ Dict.keys (matchSyllableNounAndR (lemmatizingPredicators s2 f2).2).adjectives ↔
      w ∈ Dict.keys (lemmatizingPredicators s2 f2).2.adjectives := fun w => by rw [← has_iff, gA, has_iff]
  have mV : ∀ w, w ∈ Dict.keys (matchSyllableNounAndR (lemmatizingPredicators s2 f2).2).verbs ↔
      w ∈ Dict.keys (lemmatizingPredicators s2 f2).2.verbs := fun w => by rw [← has_iff, gV, has_iff]
  have gS := sylRead_congr gA gV gJ
  have wf2 : Dict.WF f2.eojeols := sub_wf hE i2.sub
  have getf1 : ∀ w, Free s w → Dict.get? f1.eojeols w = Dict.get? s.eojeols w := by
    intro w hw
    rw [i1.sub, Dict.get?_filter hE]
    obtain ⟨n, hn⟩ := get?_of_has hw.1
    have h1 : Dict.has f1.eojeols w = true := (has_iff _ _).2 ((e1 w).2 hw)
    rw [hn]
    show (if Dict.has f1.eojeols w = true then some n else none) = some n
    rw [if_pos h1]
  have getf2 : ∀ w, w ∈ Dict.keys f2.eojeols → Dict.get? f2.eojeols w = Dict.get? s.eojeols w := by
    intro w hw
    rw [i2.sub, Dict.get?_filter hE]
    obtain ⟨n, hn⟩ := get?_of_has ((e2 w).1 hw).1.1
    have h1 : Dict.has f2.eojeols w = true := (has_iff _ _).2 hw
    rw [hn]
    show (if Dict.has f2.eojeols w = true then some n else none) = some n
    rw [if_pos h1]
  have none1 : ∀ w, ¬ Free s w → Dict.get? f1.eojeols w = none := fun w h => (Dict.get?_eq_none_iff _ _).2 (fun h' => h ((e1 w).1 h'))
  have none2 : ∀ w, w ∉ Dict.keys f2.eojeols → Dict.get? f2.eojeols w = none := fun w h => (Dict.get?_eq_none_iff _ _).2 h
  -- the lemmas
  have entry : ∀ (base : Dict Str Entry) (c l : Str → Option (List (Str × Str))) (w : Str), In s.eojeols w →
      (∀ w, Free s w → ¬ In base w) → (∀ w, (c w).isSome = true → (ca w).isSome = true ∨ (cv w).isSome = true) →
      Dict.get? (update (update base (entriesOf f1.eojeols c)) (entriesOf f2.eojeols l)) w = if In base w then Dict.get? base w else
        if Free s w then (Dict.get? s.eojeols w).bind (fun n => (if (ca w).isSome || (cv w).isSome then c w else l w).map (fun ls => (n, ls))) else none := by
    intro base c l w hw hb hc
    rw [get?_update _ _ (wf_entries wf2 _), get?_update _ _ (wf_entries wf1 _), get?_entries wf2, get?_entries wf1]
    by_cases hfree : Free s w
    · rw [if_neg (hb w hfree), if_pos hfree, getf1 w hfree]
      have hbn : Dict.get? base w = none := (Dict.get?_eq_none_iff _ _).2 (hb w hfree)
      rw [hbn]
      by_cases hcc : ((ca w).isSome || (cv w).isSome) = true
      · have : w ∉ Dict.keys f2.eojeols := by
          rw [e2]; rintro ⟨_, h2, h3⟩; rw [h2, h3] at hcc; simp at hcc
        rw [none2 w this, if_pos hcc]
        simp
      · rw [if_neg hcc]
        rw [Bool.or_eq_true, not_or] at hcc
        have hm : w ∈ Dict.keys f2.eojeols := (e2 w).2 ⟨hfree, by simpa using hcc.1, by simpa using hcc.2⟩
        have hcn : c w = none := by
          cases h : c w with
          | none => rfl
          | some x => rcases hc w (by rw [h]; rfl) with h | h
                      · exact absurd h hcc.1
                      · exact absurd h hcc.2
        rw [getf2 w hm, hcn]
        cases Dict.get? s.eojeols w <;> simp
    · rw [none1 w hfree, none2 w (fun h => hfree ((e2 w).1 h).1), if_neg hfree]
      simp only [Option.bind_none, Option.none_or]
      by_cases hi : In base w
      · rw [if_pos hi]
      · rw [if_neg hi, (Dict.get?_eq_none_iff _ _).2 hi]
  -- the frequencies
  have left : ∀ e ∈ Dict.keys s.eojeols, e ∈ Dict.keys (lemmatizingPredicators s2 f2).2.eojeols ↔
      (!known s e && !nounRead s (matchWord s) e && !Dict.has (matchSyllableNounAndR (lemmatizingPredicators s2 f2).2).adjectives e &&
        !Dict.has (matchSyllableNounAndR (lemmatizingPredicators s2 f2).2).verbs e) = true := by
    intro e he
    rw [e3, gA, gV]
    simp only [Bool.and_eq_true, Bool.not_eq_true', has_eq_false]
    unfold Free
    tauto
  have base : ∀ (X : Dict Str Entry) (c l : Str → Option (List (Str × Str))) (w : Str), (∀ w, Free s w → ¬ In X w) →
      (∀ w, (c w).isSome = true → (ca w).isSome = true ∨ (cv w).isSome = true) →
      ((In s.eojeols w ∧ In X w) ∨ Free s w ∧ ((c w).isSome = true ∨ (ca w).isSome = false ∧ (cv w).isSome = false ∧ (l w).isSome = true)) →
      (if Dict.has X w then Dict.getD s.eojeols w 0 else 0) + (if (c w).isSome then Dict.getD f1.eojeols w 0 else 0) +
        (if (l w).isSome then Dict.getD f2.eojeols w 0 else 0) = Dict.getD s.eojeols w 0 := by
    intro X c l w hX hc hor
    rcases hor with ⟨h1, h2⟩ | ⟨h1, h2⟩
    · have hnf : ¬ Free s w := fun h => hX w h h2
      have z1 : Dict.getD f1.eojeols w 0 = 0 := by unfold Dict.getD; rw [none1 w hnf]; rfl
      have z2 : Dict.getD f2.eojeols w 0 = 0 := by unfold Dict.getD; rw [none2 w (fun h => hnf ((e2 w).1 h).1)]; rfl
      rw [z1, z2, if_pos ((has_iff _ _).2 h2)]; simp
    · have h0 : Dict.has X w = false := (has_eq_false _ _).2 (hX w h1)
      have g1 : Dict.getD f1.eojeols w 0 = Dict.getD s.eojeols w 0 := by unfold Dict.getD; rw [getf1 w h1]
      rw [h0, g1]
      by_cases hcs : (c w).isSome = true
      · have : w ∉ Dict.keys f2.eojeols := by
          rw [e2]; rintro ⟨_, h3, h4⟩
          rcases hc w hcs with h | h
          · rw [h3] at h; cases h
          · rw [h4] at h; cases h
        have z2 : Dict.getD f2.eojeols w 0 = 0 := by unfold Dict.getD; rw [none2 w this]; rfl
        rw [z2, if_pos hcs]; simp
      · rcases h2 with h2 | ⟨h2, h3, h4⟩
        · exact absurd h2 hcs
        · have g2 : Dict.getD f2.eojeols w 0 = Dict.getD s.eojeols w 0 := by
            unfold Dict.getD; rw [getf2 w ((e2 w).2 ⟨h1, h2, h3⟩)]
          rw [g2, if_pos h4, if_neg hcs]; simp
  have sylDrop : ∀ (d : Dict Str Nat) (w : Str), w ∈ Dict.keys d → ∀ e, (syl (Dict.has d) (·.drop 1) e = some w ↔ e.drop 1 = w) := by
    intro d w hw e
    unfold syl
    constructor
    · intro h
      split at h
      · exact Option.some.inj h
      · cases h
    · intro h
      rw [h, if_pos ((has_iff _ _).2 hw)]
      show some (e.drop 1) = some w
      rw [h]
  have i5 := inv_drop i4 (irregular (lemmatizingPredicators s2 f2).1)
  refine ⟨i5, ?_, ?_, ?_, ?_, ?_, ?_, ?_, ?_, ?_, ?_, ?_⟩
  · dsimp only
    rw [yB, eB, st.fB, ← hf1, nounAndWord_adverbs]; rfl
  · intro w; dsimp only; rw [mA, hA3]
  · intro w; dsimp only; rw [mV, hV3]
  · intro w hw
    rw [eS]
    dsimp only
    rw [st.adjectives]
    rw [entry s.adjectives ca _ w hw (fun w h => (freeN w h).1) (fun w h => Or.inl h)]
  · intro w hw
    rw [eS]
    dsimp only
    rw [st.verbs]
    rw [entry s.verbs cv _ w hw (fun w h => (freeN w h).2) (fun w h => Or.inr h)]
  · intro r
    dsimp only
    rw [← has_iff, gJ, has_iff, eJ, st.fJ, hJ1]
  · intro w
    dsimp only
    rw [yN, mem_keys_cumulate, mem_keys_cumulate, mem_keys_cumulate, mem_keys_credit, mem_keys_credit, mem_keys_credit, eN, st.fN, hN1]
    simp only [syl_take_iff]
    constructor
    · rintro (((h | ⟨e, he, h1, h2⟩) | ⟨e, he, h1, h2⟩) | ⟨e, he, h1, h2⟩)
      · exact Or.inl h
      all_goals
        obtain ⟨h3, h4, h5⟩ := (e3 e).1 he
        exact Or.inr ⟨e, h3, by rw [mA]; exact h4, by rw [mV]; exact h5, (congrFun gS e).trans (by unfold sylRead; rw [h1]; simp), h2⟩
    · rintro (h | ⟨e, h1, h2, h3, h4, h5⟩)
      · exact Or.inl (Or.inl (Or.inl h))
      · have he := (e3 e).2 ⟨h1, by rw [← mA]; exact h2, by rw [← mV]; exact h3⟩
        replace h4 := (congrFun gS e).symm.trans h4
        unfold sylRead at h4
        simp only [Bool.or_eq_true] at h4
        rcases h4 with (h4 | h4) | h4
        · exact Or.inl (Or.inl (Or.inr ⟨e, he, h4, h5⟩))
        · exact Or.inl (Or.inr ⟨e, he, h4, h5⟩)
        · exact Or.inr ⟨e, he, h4, h5⟩
  · intro w
    dsimp only
    rw [removeIrregularWords_eq, mem_keys_removeRecognized, yE, mem_keys_removeRecognized, e3, mA, mV]
    have hread : sylRead { matchSyllableNounAndR (lemmatizingPredicators s2 f2).2 with
        eojeols := removeRecognized (removeRecognized (lemmatizingPredicators s2 f2).2.eojeols (sylRead (lemmatizingPredicators s2 f2).2))
          (irregular (lemmatizingPredicators s2 f2).1) } w = sylRead (lemmatizingPredicators s2 f2).2 w := congrFun gS w
    rw [hread]
    tauto
  · intro w hw
    dsimp only at hw ⊢
    have hw3 := (mA w).1 hw
    unfold leftover
    dsimp only
    have hd : Dict.getD (matchSyllableNounAndR (lemmatizingPredicators s2 f2).2).adjectives w 0 = Dict.getD (lemmatizingPredicators s2 f2).2.adjectives w 0 +
        mass (lemmatizingPredicators s2 f2).2.eojeols (fun e => decide (e.drop 1 = w)) := by
      rw [yA, getD_cumulate, mass_credit]
      simp only [sylDrop _ w hw3]
    rw [hd, eA, getD_cumulate, st.fA, countsOf_entries, getD_cumulate, cA1,
      mass_single_filter wf1 (fun w => (ca w).isSome), mass_single_filter wf2 (fun w => (lemmatize s2.adjectiveStems s2.eomis w).isSome), mass_sub i3.sub _ _ left]
    have h1 := base s.adjectives ca _ w (fun w h => (freeN w h).1) (fun w h => Or.inl h) ((hA3 w).1 hw3)
    omega
  · intro w hw
    dsimp only at hw ⊢
    have hw3 := (mV w).1 hw
    unfold leftover
    dsimp only
    have hd : Dict.getD (matchSyllableNounAndR (lemmatizingPredicators s2 f2).2).verbs w 0 = Dict.getD (lemmatizingPredicators s2 f2).2.verbs w 0 +
        mass (lemmatizingPredicators s2 f2).2.eojeols (fun e => decide (e.drop 1 = w)) := by
      rw [yV, getD_cumulate, mass_credit]
      simp only [sylDrop _ w hw3]
    rw [hd, eV, getD_cumulate, st.fV, countsOf_entries, getD_cumulate, cV1,
      mass_single_filter wf1 (fun w => (cv w).isSome), mass_single_filter wf2 (fun w => (lemmatize s2.verbStems s2.eomis w).isSome), mass_sub i3.sub _ _ left]
    have h1 := base s.verbs cv _ w (fun w h => (freeN w h).2) (fun w h => Or.inr h) ((hV3 w).1 hw3)
    omega
  · intro w
    unfold leftover
    dsimp only
    have t1 : ∀ (r : Str → Bool) (e : Str), decide (syl r (·.take 1) e = some w) = (r (e.drop 1) && decide (e.take 1 = w)) := by
      intro r e
      rw [Bool.eq_iff_iff, decide_eq_true_iff, syl_take_iff, Bool.and_eq_true, decide_eq_true_iff, eq_comm (a := w)]
    rw [yN, getD_cumulate, getD_cumulate, getD_cumulate, mass_credit, mass_credit, mass_credit, eN, st.fN, cN1]
    simp only [t1]
    rw [mass_sub i3.sub _ _ left, mass_sub i3.sub _ _ left, mass_sub i3.sub _ _ left, gA, gV, gJ]
    omega

end NewsPos
