import Verif.Proofs.NewsPos3
/-! Compound nouns, the translation of the passes into readings of words, and absence of errors. -/
namespace NewsPos
open Py PosSpec MaxScore

theorem score_cases {scores : Dict Str Rat} {m : Nat} {ds : Rat} {w : Str} {toks : List Tok} (h : recursiveTokenize scores m ds w = .ok toks) :
    ∀ t ∈ toks, t.score = ds ∨ t.score = Dict.getD scores t.word ds := by
  unfold recursiveTokenize at h
  dsimp only at h
  split at h
  · cases h; intro t ht; simp only [List.mem_singleton] at ht; subst ht; exact Or.inl rfl
  · split at h
    · rename_i first last _ _
      cases h
      intro t ht
      rw [mem_sorted, List.mem_append] at ht
      have hinter : ∀ t ∈ addInter ds w (find (initCands scores ds w (min m w.length) w.length)), t.score = ds := by
        intro t ht
        simp only [addInter, List.mem_filterMap] at ht
        obtain ⟨x, _, hx⟩ := ht
        split at hx
        · cases hx
        · cases hx; rfl
      have hlast : ∀ t ∈ addLast scores ds w last, t.score = Dict.getD scores t.word ds := by
        intro t ht; simp only [addLast, List.mem_singleton] at ht; subst ht; rfl
      have hfirst : ∀ t ∈ addFirst scores ds w first, t.score = Dict.getD scores t.word ds := by
        intro t ht; simp only [addFirst, List.mem_singleton] at ht; subst ht; rfl
      rcases ht with ht | ht
      · right
        have := (mem_candidates scores ds w _ t).1 (mem_sorted.1 (findGo_subset _ _ _ (mem_sorted.1 ht)))
        exact this.2.2.2.2.1
      · split at ht
        · rcases List.mem_append.1 ht with ht | ht
          · split at ht
            · rcases List.mem_append.1 ht with ht | ht
              · exact Or.inl (hinter t ht)
              · exact Or.inr (hlast t ht)
            · exact Or.inl (hinter t ht)
          · exact Or.inr (hfirst t ht)
        · split at ht
          · rcases List.mem_append.1 ht with ht | ht
            · exact Or.inl (hinter t ht)
            · exact Or.inr (hlast t ht)
          · exact Or.inl (hinter t ht)
    · cases h

theorem recursiveTokenize_congr {a b : Dict Str Rat} (h : ∀ x, Dict.get? a x = Dict.get? b x) (m : Nat) (ds : Rat) (w : Str) :
    recursiveTokenize a m ds w = recursiveTokenize b m ds w := by
  have h1 : ∀ k n, initCands a ds w k n = initCands b ds w k n := by
    intro k n; unfold initCands candidates; simp only [Dict.getD, h]
  have h2 : ∀ t, addFirst a ds w t = addFirst b ds w t := by intro t; unfold addFirst; simp only [Dict.getD, h]
  have h3 : ∀ t, addLast a ds w t = addLast b ds w t := by intro t; unfold addLast; simp only [Dict.getD, h]
  unfold recursiveTokenize
  simp only [h1, h2, h3]

/-- the score table of the compound pass -/
abbrev scoresOf (nouns : Dict Str Nat) : Dict Str Rat := (nouns.filter (fun e => decide (e.1.length > 1))).map (fun e => (e.1, (1 : Rat)))

theorem get?_map_one (d : Dict Str Nat) (x : Str) : Dict.get? (d.map (fun e => (e.1, (1 : Rat)))) x = if x ∈ Dict.keys d then some 1 else none := by
  induction d with
  | nil => simp
  | cons e d ih =>
    simp only [List.map_cons, Dict.get?_cons, ih, Dict.keys, List.mem_cons]
    by_cases h : e.1 = x
    · rw [if_pos h, if_pos (Or.inl h.symm)]
    · rw [if_neg h]
      by_cases h2 : x ∈ Dict.keys d
      · rw [if_pos h2, if_pos (Or.inr h2)]
      · rw [if_neg h2, if_neg (by rintro (h' | h'); exacts [h h'.symm, h2 h'])]

theorem get?_scoresOf (nouns : Dict Str Nat) (x : Str) :
    Dict.get? (scoresOf nouns) x = if x ∈ Dict.keys nouns ∧ 1 < x.length then some 1 else none := by
  unfold scoresOf
  rw [get?_map_one]
  have := mem_keys_filter nouns (fun w => decide (w.length > 1)) x
  simp only [decide_eq_true_eq] at this
  by_cases h : x ∈ Dict.keys nouns ∧ 1 < x.length
  · rw [if_pos h, if_pos (this.2 h)]
  · rw [if_neg h, if_neg (fun h' => h (this.1 h'))]

theorem splitWs_word {w : Str} (hne : w ≠ []) (hs : ∀ c ∈ w, isSpace c = false) : splitWs w = [w] := by
  have := splitWs_join [w] (by intro x hx; simp only [List.mem_singleton] at hx; subst hx; exact ⟨hne, hs⟩)
  simpa [join] using this

theorem compoundTokens_eq (nouns : Dict Str Nat) {w : Str} (hne : w ≠ []) (hs : ∀ c ∈ w, isSpace c = false) :
    compoundTokens nouns w = recursiveTokenize (scoresOf nouns) 10 0 w := by
  unfold compoundTokens tokenizeSpans
  rw [splitWs_word hne hs]
  simp only [List.mapM_cons, List.mapM_nil]
  cases recursiveTokenize (scoresOf nouns) 10 0 w <;> rfl

theorem compoundTokens_ok (nouns : Dict Str Nat) {w : Str} (hne : w ≠ []) (hs : ∀ c ∈ w, isSpace c = false) :
    ∃ toks, compoundTokens nouns w = .ok toks ∧ toks ≠ [] ∧ (toks.map (·.word)).flatten = w ∧ (∀ t ∈ toks, t.word ≠ []) ∧
      ∀ t ∈ toks, 0 < t.score → t.word ∈ Dict.keys nouns ∧ 1 < t.word.length := by
  rw [compoundTokens_eq nouns hne hs]
  obtain ⟨toks, h1, h2⟩ := Props.C14_tiles (scoresOf nouns) 10 (by omega) 0 w hne
  obtain ⟨_, h3, h4⟩ := Props.tiles_flatten h2 (Nat.le_refl _)
  simp only [List.map_map, List.take_length, List.drop_zero] at h3
  have h3 : (toks.map (·.word)).flatten = w := h3
  refine ⟨toks, h1, ?_, h3, ?_, ?_⟩
  · rintro rfl; simp at h3; exact hne h3
  · intro t ht; exact h4 (t.word, t.b, t.e) (List.mem_map.2 ⟨t, ht, rfl⟩)
  · intro t ht hpos
    rcases score_cases h1 t ht with h | h
    · rw [h] at hpos; exact absurd hpos (by simp)
    · rw [h, Dict.getD, get?_scoresOf] at hpos
      split at hpos
      · assumption
      · simp at hpos

theorem parseCompound_ok {suffix : Str → Bool} {toks : List Tok} (h : toks ≠ []) : ∃ o, parseCompound suffix toks = .ok o := by
  unfold parseCompound
  rw [List.getLast?_eq_some_getLast h]
  dsimp only
  split
  · exact ⟨_, rfl⟩
  · split
    · exact ⟨_, rfl⟩
    · split <;> exact ⟨_, rfl⟩

theorem nounOf_some {nouns : Dict Str Nat} {suffix : Str → Bool} {w n : Str} (hne : w ≠ []) (hs : ∀ c ∈ w, isSpace c = false)
    (h : nounOf nouns suffix w = some n) :
    ∃ (parts : List Str) (rest : Str), w = n ++ rest ∧ n = parts.flatten ∧ parts ≠ [] ∧ (∀ p ∈ parts, p ∈ Dict.keys nouns ∧ 2 ≤ p.length) ∧
      (rest = [] ∨ 2 ≤ parts.length ∧ suffix rest = true) := by
  obtain ⟨toks, h1, h2, h3, _, h5⟩ := compoundTokens_ok nouns hne hs
  unfold nounOf at h
  rw [h1] at h
  dsimp only at h
  obtain ⟨o, ho⟩ := parseCompound_ok (suffix := suffix) h2
  rw [ho] at h
  dsimp only at h
  subst h
  unfold parseCompound at ho
  rw [List.getLast?_eq_some_getLast h2] at ho
  have hsplit := List.dropLast_append_getLast h2
  generalize toks.getLast h2 = last at *
  generalize hd : toks.dropLast = init at *
  subst hsplit
  dsimp only at ho
  split at ho
  · cases ho
  · rename_i hall
    rw [Bool.not_eq_true, List.any_eq_false] at hall
    have hinit : ∀ t ∈ init, t.word ∈ Dict.keys nouns ∧ 2 ≤ t.word.length := by
      intro t ht
      have := hall t ht
      simp only [decide_eq_true_eq, not_le] at this
      exact h5 t (by simp [ht]) this
    simp only [List.map_append, List.flatten_append, List.map_cons, List.map_nil, List.flatten_cons, List.flatten_nil, List.append_nil] at h3
    split at ho
    · rename_i hc
      cases ho
      have hlen : 2 ≤ init.length := by have := hc.1; simp at this; omega
      refine ⟨init.map (·.word), last.word, ?_, rfl, ?_, ?_, Or.inr ⟨by simpa using hlen, hc.2⟩⟩
      · rw [← h3, List.flatMap]
      · rintro h0; rw [List.map_eq_nil_iff] at h0; subst h0; simp at hlen
      · intro p hp; obtain ⟨t, ht, rfl⟩ := List.mem_map.1 hp; exact hinit t ht
    · split at ho
      · rename_i hpos
        cases ho
        refine ⟨(init ++ [last]).map (·.word), [], ?_, ?_, by simp, ?_, Or.inl rfl⟩
        · rw [← h3]; simp [List.flatMap]
        · rw [List.flatMap]
        · intro p hp
          obtain ⟨t, ht, rfl⟩ := List.mem_map.1 hp
          rcases List.mem_append.1 ht with ht | ht
          · exact hinit t ht
          · simp only [List.mem_singleton] at ht; subst ht
            exact h5 t (by simp) hpos
      · cases ho

/-- the tokens of a word that is no compound -/
theorem nounOf_none {nouns : Dict Str Nat} {suffix : Str → Bool} {w : Str} (hne : w ≠ []) (hs : ∀ c ∈ w, isSpace c = false)
    (h : nounOf nouns suffix w = none) {toks : List Tok} (ht : recursiveTokenize (scoresOf nouns) 10 0 w = .ok toks) :
    ∃ init last, toks = init ++ [last] ∧ ((∃ t ∈ init, t.score ≤ 0) ∨ last.score ≤ 0 ∧ ¬ (2 ≤ init.length ∧ suffix last.word = true)) := by
  obtain ⟨toks', h1, h2, _⟩ := compoundTokens_ok nouns hne hs
  rw [compoundTokens_eq nouns hne hs, ht] at h1
  cases h1
  unfold nounOf at h
  rw [compoundTokens_eq nouns hne hs, ht] at h
  dsimp only at h
  unfold parseCompound at h
  rw [List.getLast?_eq_some_getLast h2] at h
  refine ⟨toks.dropLast, toks.getLast h2, (List.dropLast_append_getLast h2).symm, ?_⟩
  dsimp only at h
  by_cases h0 : toks.dropLast.any (fun t => decide (t.score ≤ 0)) = true
  · left
    rw [List.any_eq_true] at h0
    obtain ⟨t, ht, h0⟩ := h0
    exact ⟨t, ht, by simpa using h0⟩
  · right
    rw [if_neg h0] at h
    have hl := List.length_dropLast (xs := toks)
    split at h
    · rename_i o ho
      by_cases hc : toks.length ≥ 3 ∧ suffix (toks.getLast h2).word = true
      · rw [if_pos hc] at ho; cases ho; cases h
      · rw [if_neg hc] at ho
        by_cases hp : (toks.getLast h2).score > 0
        · rw [if_pos hp] at ho; cases ho; cases h
        · exact ⟨not_lt.1 hp, fun hh => hc ⟨by omega, hh.2⟩⟩
    · rename_i e he
      by_cases hc : toks.length ≥ 3 ∧ suffix (toks.getLast h2).word = true
      · rw [if_pos hc] at he; cases he
      · rw [if_neg hc] at he
        split at he <;> cases he

/-! ### readings -/

theorem known_iff {s : State} {w : Str} : known s w = false ↔ ¬ Known s w := by
  rw [known_false]; unfold Known; tauto

theorem standing_has (s : State) : Dict.has (matchWord s).nouns = fun w => decide (w ∈ s.nouns ∧ w ∈ Dict.keys s.eojeols) := by
  funext w
  rw [Bool.eq_iff_iff, has_iff, (matchWord_keys s w).1, decide_eq_true_iff]; rfl

theorem reads_congr {L L' R R' : Str → Prop} (hL : ∀ x, L x ↔ L' x) (hR : ∀ x, R x ↔ R' x) (w l r : Str) : Reads L R w l r ↔ Reads L' R' w l r := by
  unfold Reads; rw [hL, hR]

theorem nounRead_iff {s : State} {w : Str} : nounRead s (matchWord s) w = true ↔ ∃ l r, Reads (Standing s) (Ending s) w l r := by
  unfold nounRead
  simp only [Bool.or_eq_true, sepOf, separateLR_isSome]
  have hL : ∀ x, Dict.has (matchWord s).nouns x = true ↔ Standing s x := fun x => by rw [has_iff]; exact (matchWord_keys s x).1
  have hA : ∀ x, Dict.has (matchWord s).adjectives x = true ↔ In s.eojeols x ∧ In s.adjectives x := fun x => by
    rw [has_iff]; exact (matchWord_keys s x).2.1
  have hV : ∀ x, Dict.has (matchWord s).verbs x = true ↔ In s.eojeols x ∧ In s.verbs x := fun x => by
    rw [has_iff]; exact (matchWord_keys s x).2.2.1
  have hJ : ∀ x, s.josas.contains x = true ↔ x ∈ s.josas := fun x => List.contains_iff_mem
  simp only [reads_congr hL hJ, reads_congr hL hA, reads_congr hL hV]
  constructor
  · rintro ((⟨l, r, h1, h2, h3, h4, h5⟩ | ⟨l, r, h1, h2, h3, h4, h5⟩) | ⟨l, r, h1, h2, h3, h4, h5⟩)
    · exact ⟨l, r, h1, h2, h3, h4, Or.inl h5⟩
    · exact ⟨l, r, h1, h2, h3, h4, Or.inr ⟨h5.1, Or.inl h5.2⟩⟩
    · exact ⟨l, r, h1, h2, h3, h4, Or.inr ⟨h5.1, Or.inr h5.2⟩⟩
  · rintro ⟨l, r, h1, h2, h3, h4, h5 | ⟨h5, h6 | h6⟩⟩
    · exact Or.inl (Or.inl ⟨l, r, h1, h2, h3, h4, h5⟩)
    · exact Or.inl (Or.inr ⟨l, r, h1, h2, h3, h4, h5, h6⟩)
    · exact Or.inr ⟨l, r, h1, h2, h3, h4, h5, h6⟩

theorem free_iff {s : State} {w : Str} : Free s w ↔ In s.eojeols w ∧ ¬ Known s w ∧ ¬ ∃ l r, Reads (Standing s) (Ending s) w l r := by
  unfold Free
  rw [known_iff, ← nounRead_iff]; simp

theorem separateLR_eq_iff {w l r : Str} {L R : Str → Bool} :
    separateLR w L R = some (l, r) ↔ ShortestRead (fun x => L x = true) (fun x => R x = true) w l r := by
  constructor
  · intro h
    exact ⟨separateLR_some h, fun l' r' hr => separateLR_shortest h l' r' hr⟩
  · rintro ⟨h1, h2⟩
    have hs : (separateLR w L R).isSome = true := separateLR_isSome.2 ⟨l, r, h1⟩
    obtain ⟨lr, hlr⟩ := Option.isSome_iff_exists.1 hs
    have a := separateLR_shortest hlr l r h1
    have b := h2 _ _ (separateLR_some hlr)
    have hw := (separateLR_some hlr).1
    rw [h1.1] at hw
    have := List.append_inj hw (by omega)
    rw [hlr, this.1, this.2]

theorem attested_iff {s : State} {r : Str} : Attested s r ↔ AttestedJosa s r := by
  unfold Attested AttestedJosa
  have hL : ∀ x, Dict.has (matchWord s).nouns x = true ↔ Standing s x := fun x => by rw [has_iff]; exact (matchWord_keys s x).1
  have hJ : ∀ x, s.josas.contains x = true ↔ x ∈ s.josas := fun x => List.contains_iff_mem
  simp only [separateLR_eq_iff, ShortestRead, reads_congr hL hJ, known_iff]

/-! ### absence of errors -/

theorem filterM_ok {p : Str × Str → PyM Bool} {l : List (Str × Str)} (h : ∀ x ∈ l, ∃ b, p x = .ok b) : ∃ o, filterM p l = .ok o := by
  induction l with
  | nil => exact ⟨_, rfl⟩
  | cons x l ih =>
    obtain ⟨b, hb⟩ := h x (by simp)
    obtain ⟨o, ho⟩ := ih (fun y hy => h y (by simp [hy]))
    exact ⟨_, by simp only [filterM, hb, ho]; rfl⟩

theorem mem_filterM {p : Str × Str → PyM Bool} {l o : List (Str × Str)} (h : filterM p l = .ok o) : ∀ x ∈ o, x ∈ l ∧ p x = .ok true := by
  induction l generalizing o with
  | nil => simp only [filterM, Except.ok.injEq] at h; subst h; simp
  | cons x l ih =>
    simp only [filterM] at h
    cases hb : p x with
    | error e => rw [hb] at h; cases h
    | ok b =>
      rw [hb] at h
      dsimp only at h
      cases ho : filterM p l with
      | error e => rw [ho] at h; cases h
      | ok o' =>
        rw [ho] at h
        cases h
        intro y hy
        cases b with
        | false => have := ih ho y (by simpa using hy); exact ⟨by simp [this.1], this.2⟩
        | true =>
          rcases List.mem_cons.1 (by simpa using hy) with rfl | hy
          · exact ⟨by simp, hb⟩
          · have := ih ho y hy; exact ⟨by simp [this.1], this.2⟩

theorem compoundOf_ok {check : Str → Str → PyM Bool} {stems predicators : Str → Bool} {base : Dict Str Entry} {w : Str}
    (h : ∀ l r e, Dict.get? base r = some e → ∀ q ∈ e.2, l ≠ [] → ∃ b, check (l ++ q.1) q.2 = .ok b) :
    ∃ o, compoundOf check stems predicators base w = .ok o := by
  unfold compoundOf
  cases hs : separateLR w predicators (fun r => Dict.has base r) with
  | none => exact ⟨_, rfl⟩
  | some lr =>
    dsimp only
    obtain ⟨_, h2, _, _, h5⟩ := separateLR_some hs
    obtain ⟨e, he⟩ := Option.isSome_iff_exists.1 h5
    have : ∃ o, filterM (fun l => check l.1 l.2) ((Dict.getD base lr.2 (0, [])).2.map (fun l => (lr.1 ++ l.1, l.2))) = .ok o := by
      apply filterM_ok
      intro x hx
      rw [Dict.getD, he] at hx
      obtain ⟨q, hq, rfl⟩ := List.mem_map.1 hx
      exact h lr.1 lr.2 e he q hq (by rintro h0; rw [h0] at h2; simp at h2)
    obtain ⟨o, ho⟩ := this
    rw [ho]
    exact ⟨_, rfl⟩

theorem parseCompounds_ok {check : Str → Str → PyM Bool} {stems predicators : Str → Bool} {base : Dict Str Entry} {R : Dict Str Nat}
    (h : ∀ l r e, Dict.get? base r = some e → ∀ q ∈ e.2, l ≠ [] → ∃ b, check (l ++ q.1) q.2 = .ok b) :
    ∃ cs, parseCompounds check stems predicators base R = .ok cs := by
  induction R with
  | nil => exact ⟨_, rfl⟩
  | cons x R ih =>
    obtain ⟨a, b⟩ := x
    obtain ⟨o, ho⟩ := compoundOf_ok (stems := stems) (predicators := predicators) (w := a) h
    obtain ⟨cs, hcs⟩ := ih
    simp only [parseCompounds, ho]
    cases o with
    | none => exact ⟨cs, hcs⟩
    | some ls => exact ⟨_, by rw [hcs]⟩

theorem compoundNouns_ok (nouns : Dict Str Nat) (suffix : Str → Bool) (R : Dict Str Nat)
    (h : ∀ w ∈ Dict.keys R, w ≠ [] ∧ ∀ c ∈ w, isSpace c = false) : ∃ cs, compoundNouns nouns suffix R = .ok cs := by
  induction R with
  | nil => exact ⟨_, rfl⟩
  | cons x R ih =>
    obtain ⟨a, b⟩ := x
    obtain ⟨cs, hcs⟩ := ih (fun w hw => h w (by simp only [Dict.keys, List.map_cons]; exact List.mem_cons_of_mem _ hw))
    have ha := h a (by simp [Dict.keys])
    obtain ⟨toks, h1, h2, _⟩ := compoundTokens_ok nouns ha.1 ha.2
    obtain ⟨o, ho⟩ := parseCompound_ok (suffix := suffix) h2
    simp only [compoundNouns, h1, ho, hcs]
    exact ⟨_, rfl⟩

end NewsPos
