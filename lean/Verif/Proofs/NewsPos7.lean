import Verif.Proofs.NewsPos6
/-! The exact frequencies, in terms of the specification, for both POS extractors. -/
namespace NewsPos
open Py PosSpec

theorem total_congr_bool {E : Dict Str Nat} {p : Str → Bool} {P : Str → Prop} (h : ∀ e ∈ Dict.keys E, p e = true ↔ P e) : mass E p = total E P := by
  unfold total
  apply mass_congr
  intro e he
  rw [Bool.eq_iff_iff, @decide_eq_true_iff _ (Classical.propDecidable _)]
  exact h e he

/-- how the returned dictionaries and the counters are related -/
structure Shown (s s' : State) (f : Found) (t : WordTags) : Prop where
  A : ∀ w, In t.adjective w ↔ w ∈ Dict.keys f.adjectives
  V : ∀ w, In t.verb w ↔ w ∈ Dict.keys f.verbs
  J : ∀ r, r ∈ Dict.keys f.josas ↔ AttestedJosa s r
  eomi : t.eomi = s'.eomis
  josa : t.josa = s'.josas

theorem leftover_iff {s s' : State} {f : Found} {t : WordTags} (S : Shown s s' f t) {e : Str} (he : In s.eojeols e) : leftover s f e = true ↔ Leftover s t e := by
  unfold leftover Leftover Unread
  simp only [Bool.and_eq_true, Bool.not_eq_true', has_eq_false, known_iff, S.A, S.V, In]
  rw [← Bool.not_eq_true (nounRead _ _ _), nounRead_iff]
  constructor
  · rintro ⟨⟨⟨h1, h2⟩, h3⟩, h4⟩; exact ⟨⟨he, h1, h2⟩, h3, h4⟩
  · rintro ⟨⟨_, h1, h2⟩, h3, h4⟩; exact ⟨⟨⟨h1, h2⟩, h3⟩, h4⟩

theorem sep_right {s : State} {R : Str → Bool} {R' : Str → Prop} (hR : ∀ x, R x = true ↔ R' x) (e w : Str) :
    (sepOf (matchWord s) R e).map (·.2) = some w ↔ ∃ l, ShortestRead (Standing s) R' e l w := by
  have hL : ∀ x, Dict.has (matchWord s).nouns x = true ↔ Standing s x := fun x => by rw [has_iff]; exact (matchWord_keys s x).1
  have hc : ∀ l r, separateLR e (Dict.has (matchWord s).nouns) R = some (l, r) ↔ ShortestRead (Standing s) R' e l r := by
    intro l r; rw [separateLR_eq_iff]; simp only [ShortestRead, reads_congr hL hR]
  constructor
  · intro h
    obtain ⟨⟨l, r⟩, h1, rfl⟩ := Option.map_eq_some_iff.1 h
    exact ⟨l, (hc l r).1 h1⟩
  · rintro ⟨l, h⟩
    show (separateLR e (Dict.has (matchWord s).nouns) R).map (·.2) = some w
    rw [(hc l w).2 h]; rfl

theorem sep_left {s : State} {R : Str → Bool} {R' : Str → Prop} (hR : ∀ x, R x = true ↔ R' x) (e w : Str) :
    (sepOf (matchWord s) R e).map (·.1) = some w ↔ ∃ r, ShortestRead (Standing s) R' e w r := by
  have hL : ∀ x, Dict.has (matchWord s).nouns x = true ↔ Standing s x := fun x => by rw [has_iff]; exact (matchWord_keys s x).1
  have hc : ∀ l r, separateLR e (Dict.has (matchWord s).nouns) R = some (l, r) ↔ ShortestRead (Standing s) R' e l r := by
    intro l r; rw [separateLR_eq_iff]; simp only [ShortestRead, reads_congr hL hR]
  constructor
  · intro h
    obtain ⟨⟨l, r⟩, h1, rfl⟩ := Option.map_eq_some_iff.1 h
    exact ⟨r, (hc l r).1 h1⟩
  · rintro ⟨r, h⟩
    show (separateLR e (Dict.has (matchWord s).nouns) R).map (·.1) = some w
    rw [(hc w r).2 h]; rfl

theorem read_adjective (s : State) (x : Str) : Dict.has (matchWord s).adjectives x = true ↔ In s.eojeols x ∧ In s.adjectives x := by
  rw [has_iff]; exact (matchWord_keys s x).2.1

theorem read_verb (s : State) (x : Str) : Dict.has (matchWord s).verbs x = true ↔ In s.eojeols x ∧ In s.verbs x := by
  rw [has_iff]; exact (matchWord_keys s x).2.2.1

theorem read_josa (s : State) (x : Str) : s.josas.contains x = true ↔ x ∈ s.josas := List.contains_iff_mem

theorem total_read_right {s : State} {R : Str → Bool} {R' : Str → Prop} (hR : ∀ x, R x = true ↔ R' x) (w : Str) :
    mass s.eojeols (fun e => !known s e && decide ((sepOf (matchWord s) R e).map (·.2) = some w)) =
      total s.eojeols (fun e => ¬ Known s e ∧ ∃ l, ShortestRead (Standing s) R' e l w) := by
  apply total_congr_bool
  intro e _
  rw [Bool.and_eq_true, Bool.not_eq_true', known_iff, decide_eq_true_iff, sep_right hR]

theorem total_read_left {s : State} {R : Str → Bool} {R' : Str → Prop} (hR : ∀ x, R x = true ↔ R' x) (w : Str) :
    mass s.eojeols (fun e => !known s e && decide ((sepOf (matchWord s) R e).map (·.1) = some w)) =
      total s.eojeols (fun e => ¬ Known s e ∧ ∃ r, ShortestRead (Standing s) R' e w r) := by
  apply total_congr_bool
  intro e _
  rw [Bool.and_eq_true, Bool.not_eq_true', known_iff, decide_eq_true_iff, sep_left hR]

theorem total_leftover_right {s s' : State} {f : Found} {t : WordTags} (S : Shown s s' f t) {w : Str} (hw : w ≠ []) :
    mass s.eojeols (fun e => leftover s f e && decide (e.drop 1 = w)) = total s.eojeols (fun e => Leftover s t e ∧ ∃ c, e = c :: w) := by
  apply total_congr_bool
  intro e he
  rw [Bool.and_eq_true, leftover_iff S he, decide_eq_true_iff]
  refine and_congr_right fun _ => ?_
  cases e with
  | nil => exact ⟨fun h => absurd h.symm hw, fun ⟨c, h⟩ => by cases h⟩
  | cons c r =>
    constructor
    · intro h; exact ⟨c, by rw [← h]; rfl⟩
    · rintro ⟨c', h⟩; cases h; rfl

theorem total_leftover_left {s s' : State} {f : Found} {t : WordTags} (hE : ∀ w, In s.eojeols w → w ≠ []) (S : Shown s s' f t) {d : Dict Str Nat} {P : Str → Prop} (hP : ∀ x, Dict.has d x = true ↔ P x) (w : Str) :
    mass s.eojeols (fun e => leftover s f e && (Dict.has d (e.drop 1) && decide (e.take 1 = w))) =
      total s.eojeols (fun e => Leftover s t e ∧ ∃ c r, e = c :: r ∧ w = [c] ∧ P r) := by
  apply total_congr_bool
  intro e he
  rw [Bool.and_eq_true, Bool.and_eq_true, leftover_iff S he, decide_eq_true_iff, hP]
  refine and_congr_right fun _ => ?_
  cases e with
  | nil => exact absurd rfl (hE _ he)
  | cons c r =>
    constructor
    · rintro ⟨h1, h2⟩; exact ⟨c, r, rfl, h2.symm, h1⟩
    · rintro ⟨c', r', h, h2, h1⟩; cases h; exact ⟨h1, h2.symm⟩

theorem adjective_count {s s' : State} {f : Found} {ca cv la lv : Str → Option (List (Str × Str))} {t : WordTags} (hE : ∀ w, In s.eojeols w → w ≠ []) (F : Facts s s' f ca cv la lv)
    (S : Shown s s' f t) {w : Str} (hw : w ∈ Dict.keys f.adjectives) :
    Dict.getD f.adjectives w 0 = Dict.getD s.eojeols w 0 +
      total s.eojeols (fun e => ¬ Known s e ∧ ∃ l, ShortestRead (Standing s) (fun r => In s.eojeols r ∧ In s.adjectives r) e l w) +
      total s.eojeols (fun e => Leftover s t e ∧ ∃ c, e = c :: w) := by
  have hin : In s.eojeols w := by
    rcases (F.keysA w).1 hw with h | h
    · exact h.1
    · exact h.1.1
  rw [F.cntA w hw, total_read_right (read_adjective s), total_leftover_right S (hE w hin)]

theorem verb_count {s s' : State} {f : Found} {ca cv la lv : Str → Option (List (Str × Str))} {t : WordTags} (hE : ∀ w, In s.eojeols w → w ≠ []) (F : Facts s s' f ca cv la lv)
    (S : Shown s s' f t) {w : Str} (hw : w ∈ Dict.keys f.verbs) :
    Dict.getD f.verbs w 0 = Dict.getD s.eojeols w 0 +
      total s.eojeols (fun e => ¬ Known s e ∧ ∃ l, ShortestRead (Standing s) (fun r => In s.eojeols r ∧ In s.verbs r) e l w) +
      total s.eojeols (fun e => Leftover s t e ∧ ∃ c, e = c :: w) := by
  have hin : In s.eojeols w := by
    rcases (F.keysV w).1 hw with h | h
    · exact h.1
    · exact h.1.1
  rw [F.cntV w hw, total_read_right (read_verb s), total_leftover_right S (hE w hin)]

open Classical in
theorem noun_count {s s' : State} {f : Found} {ca cv la lv : Str → Option (List (Str × Str))} {t : WordTags} (hE : ∀ w, In s.eojeols w → w ≠ []) (F : Facts s s' f ca cv la lv)
    (S : Shown s s' f t) (w : Str) :
    Dict.getD f.nouns w 0 = (if w ∈ s.nouns then Dict.getD s.eojeols w 0 else 0) +
      (total s.eojeols (fun e => ¬ Known s e ∧ ∃ r, ShortestRead (Standing s) (· ∈ s.josas) e w r) +
       total s.eojeols (fun e => ¬ Known s e ∧ ∃ r, ShortestRead (Standing s) (fun r => In s.eojeols r ∧ In s.adjectives r) e w r) +
       total s.eojeols (fun e => ¬ Known s e ∧ ∃ r, ShortestRead (Standing s) (fun r => In s.eojeols r ∧ In s.verbs r) e w r)) +
      (total s.eojeols (fun e => Leftover s t e ∧ ∃ c r, e = c :: r ∧ w = [c] ∧ In t.adjective r) +
       total s.eojeols (fun e => Leftover s t e ∧ ∃ c r, e = c :: r ∧ w = [c] ∧ In t.verb r) +
       total s.eojeols (fun e => Leftover s t e ∧ ∃ c r, e = c :: r ∧ w = [c] ∧ AttestedJosa s r)) := by
  rw [F.cntN w, total_read_left (read_josa s), total_read_left (read_adjective s), total_read_left (read_verb s),
    total_leftover_left hE S (fun x => (has_iff _ x).trans (S.A x).symm), total_leftover_left hE S (fun x => (has_iff _ x).trans (S.V x).symm),
    total_leftover_left hE S (fun x => (has_iff _ x).trans (S.J x))]
  congr 2
  by_cases h : w ∈ s.nouns
  · rw [if_pos h, if_pos (by simpa using h)]
  · rw [if_neg h, if_neg (by simpa using h)]

theorem sylRead_iff {s s' : State} {f : Found} {t : WordTags} (S : Shown s s' f t) (e : Str) : sylRead f e = true ↔ Recognised s t (e.drop 1) := by
  unfold sylRead Recognised
  simp only [Bool.or_eq_true, has_iff, ← S.A, ← S.V, ← S.J, or_assoc, In]

theorem plainNoun_iff {s s' : State} {f : Found} {ca cv la lv : Str → Option (List (Str × Str))} {t : WordTags} (hE : ∀ w, In s.eojeols w → w ≠ []) (F : Facts s s' f ca cv la lv)
    (S : Shown s s' f t) (w : Str) : w ∈ Dict.keys f.nouns ↔ PlainNoun s t w := by
  rw [F.keysN]
  refine or_congr_right ?_
  constructor
  · rintro ⟨e, h1, h2, h3, h4, rfl⟩
    have hf := free_iff.1 h1
    cases e with
    | nil => exact absurd rfl (hE _ hf.1)
    | cons c r => exact ⟨c, r, rfl, ⟨hf, by rwa [S.A], by rwa [S.V]⟩, (sylRead_iff S _).1 h4⟩
  · rintro ⟨c, r, rfl, ⟨h1, h2, h3⟩, h4⟩
    exact ⟨c :: r, free_iff.2 h1, by rwa [← S.A], by rwa [← S.V], (sylRead_iff S (c :: r)).2 h4, rfl⟩

theorem residual_iff {s s' : State} {f : Found} {ca cv la lv : Str → Option (List (Str × Str))} {t : WordTags} (F : Facts s s' f ca cv la lv)
    (S : Shown s s' f t) (w : Str) : w ∈ Dict.keys f.eojeols ↔ Residual s t w := by
  rw [F.eoj]
  unfold Residual Leftover Unread irregular
  rw [free_iff, S.A, S.V, S.eomi, S.josa, ← Bool.not_eq_true (sylRead _ _), sylRead_iff S]
  rw [← Bool.not_eq_true]
  simp only [Bool.or_eq_true, decide_eq_true_iff, List.contains_iff_mem]
  tauto

/-- the compound noun of an eojeol, from its tokens -/
theorem nounOf_iff {nouns : Dict Str Nat} {suffix : Str → Bool} {w v : Str} (hne : w ≠ []) (hs : ∀ c ∈ w, isSpace c = false) :
    nounOf nouns suffix w = some v ↔ ∃ init last, MaxScore.recursiveTokenize (scoresOf nouns) 10 0 w = .ok (init ++ [last]) ∧ (∀ k ∈ init, 0 < k.score) ∧
      (2 ≤ init.length ∧ suffix last.word = true ∧ v = init.flatMap (·.word) ∨ ¬ (2 ≤ init.length ∧ suffix last.word = true) ∧ 0 < last.score ∧ v = w) := by
  obtain ⟨toks, h1, h2, h3, _, _⟩ := compoundTokens_ok nouns hne hs
  have h1' := h1
  rw [compoundTokens_eq nouns hne hs] at h1'
  unfold nounOf
  rw [h1, h1']
  dsimp only
  obtain ⟨init, last, rfl⟩ : ∃ init last, toks = init ++ [last] := ⟨toks.dropLast, toks.getLast h2, (List.dropLast_append_getLast h2).symm⟩
  have hw : (init ++ [last]).flatMap (·.word) = w := by rw [← h3, List.flatMap]
  have hp : parseCompound suffix (init ++ [last]) = if init.any (fun t => decide (t.score ≤ 0)) then .ok none else
      if 2 ≤ init.length ∧ suffix last.word = true then .ok (some (init.flatMap (·.word))) else
      if 0 < last.score then .ok (some w) else .ok none := by
    unfold parseCompound
    simp only [List.dropLast_concat, List.getLast?_append, List.getLast?_singleton, Option.some_or, List.length_append, List.length_singleton]
    rw [hw]
    have : init.length + 1 ≥ 3 ↔ 2 ≤ init.length := by omega
    simp only [this, gt_iff_lt]
  rw [hp]
  have huniq : ∀ (i : List MaxScore.Tok) (l : MaxScore.Tok), (Except.ok (init ++ [last]) : PyM _) = .ok (i ++ [l]) ↔ i = init ∧ l = last := by
    intro i l
    constructor
    · intro h
      have := Except.ok.inj h
      have := List.append_inj' this (by simp)
      exact ⟨this.1.symm, by simpa using this.2.symm⟩
    · rintro ⟨rfl, rfl⟩; rfl
  have hpos : init.any (fun t => decide (t.score ≤ 0)) = true ↔ ¬ ∀ k ∈ init, 0 < k.score := by
    rw [List.any_eq_true]
    constructor
    · rintro ⟨x, hx, h⟩ hall
      exact absurd (hall x hx) (not_lt.2 (by simpa using h))
    · intro h
      by_contra hc
      exact h (fun k hk => not_le.1 (fun hle => hc ⟨k, hk, by simpa using hle⟩))
  constructor
  · intro h
    refine ⟨init, last, rfl, ?_⟩
    by_cases ha : init.any (fun t => decide (t.score ≤ 0)) = true
    · rw [if_pos ha] at h; cases h
    · rw [if_neg ha] at h
      refine ⟨not_not.1 (fun hc => ha (hpos.2 hc)), ?_⟩
      by_cases hb : 2 ≤ init.length ∧ suffix last.word = true
      · rw [if_pos hb] at h; cases h; exact Or.inl ⟨hb.1, hb.2, rfl⟩
      · rw [if_neg hb] at h
        by_cases hc : 0 < last.score
        · rw [if_pos hc] at h; cases h; exact Or.inr ⟨hb, hc, rfl⟩
        · rw [if_neg hc] at h; cases h
  · rintro ⟨i, l, he, h4, h5⟩
    obtain ⟨rfl, rfl⟩ := (huniq i l).1 he
    rw [if_neg (fun h => hpos.1 h h4)]
    rcases h5 with ⟨h6, h7, rfl⟩ | ⟨h6, h7, rfl⟩
    · rw [if_pos ⟨h6, h7⟩]
    · rw [if_neg h6, if_pos h7]

theorem scores_nouns {s : State} {f : Found} {ca cv la lv : Str → Option (List (Str × Str))} {s' : State} (F : Facts s s' f ca cv la lv) (x : Str) :
    Dict.get? (scoresOf f.nouns) x = Dict.get? (nounScores s) x := by
  unfold nounScores
  rw [get?_scoresOf, get?_map_one]
  have h4 := mem_keys_filter s.eojeols (fun w => s.nouns.contains w && decide (1 < w.length)) x
  have h5 : x ∈ Dict.keys f.nouns ∧ 1 < x.length ↔ x ∈ Dict.keys (s.eojeols.filter (fun e => s.nouns.contains e.1 && decide (1 < e.1.length))) := by
    rw [h4, F.keysN, Bool.and_eq_true, decide_eq_true_iff, List.contains_iff_mem]
    constructor
    · rintro ⟨⟨ha, hb⟩ | ⟨e, _, _, _, _, rfl⟩, hl⟩
      · exact ⟨hb, ha, hl⟩
      · simp at hl
    · rintro ⟨ha, hb, hl⟩; exact ⟨Or.inl ⟨hb, ha⟩, hl⟩
  by_cases hx : x ∈ Dict.keys f.nouns ∧ 1 < x.length
  · rw [if_pos hx, if_pos (h5.1 hx)]
  · rw [if_neg hx, if_neg (fun h' => hx (h5.2 h'))]

theorem compoundNoun_iff {s s' : State} {f : Found} {ca cv la lv : Str → Option (List (Str × Str))} {t : WordTags} (hE : ∀ w, In s.eojeols w → w ≠ []) (F : Facts s s' f ca cv la lv)
    (S : Shown s s' f t) {e w : Str} (hne : e ≠ []) (hs : ∀ c ∈ e, isSpace c = false) :
    nounOf f.nouns (suffixOf f) e = some w ↔ CompoundNoun s t e w := by
  rw [nounOf_iff hne hs]
  unfold CompoundNoun
  have hsuf : ∀ x, suffixOf f x = true ↔ PlainNoun s t x ∨ Recognised s t x := by
    intro x
    unfold suffixOf Recognised
    simp only [Bool.or_eq_true, has_iff]
    rw [plainNoun_iff hE F S, S.A, S.V, ← S.J, or_assoc, or_assoc]
  simp only [recursiveTokenize_congr (scores_nouns F), hsuf]

end NewsPos
