import Verif.Proofs.Compound
import Verif.Props.C14_C15
import Verif.Props.C54
import Verif.Props.C46
import Mathlib.Tactic.Linarith
/-! C49: compound nouns of `LRNounExtractor_v2`. -/
set_option linter.unusedSimpArgs false
namespace Props
open Py Nested

/-- `parts` are known nouns with a positive score which make up the eojeol `e`, or (two or more of them) all of `e` but a
    josa at its end -/
structure NounChain49 (pos : List Str) (scores : Dict Str Rat) (e : Str) (parts : List Str) : Prop where
  nonempty : parts ≠ []
  nouns : ∀ q ∈ parts, q ≠ [] ∧ ∃ x, Dict.get? scores q = some x ∧ 0 < x
  text : parts.flatten = e ∨ (2 ≤ parts.length ∧ ∃ j ∈ pos, j ≠ [] ∧ parts.flatten ++ j = e)

private theorem mapM_all_ok (scores : Dict Str Rat) (ws : List Str) (h : ∀ w ∈ ws, w ≠ []) :
    ∃ tss, ws.mapM (MaxScore.recursiveTokenize scores 10 0) = .ok tss := by
  induction ws with
  | nil => exact ⟨[], rfl⟩
  | cons w ws ih =>
    obtain ⟨tss, h1⟩ := ih (fun v hv => h v (List.mem_cons_of_mem _ hv))
    obtain ⟨toks, h4, _⟩ := C14_tiles scores 10 (by omega) 0 w (h w (by simp))
    exact ⟨toks :: tss, by simp [List.mapM_cons, h4, h1, bind, Except.bind, pure, Except.pure]⟩

private theorem decompose_ok (scores : Dict Str Rat) (word e : Str) (rest : List Str) (h : splitWs word = e :: rest) :
    ∃ toks, V2.decompose scores word = .ok toks ∧ MaxScore.recursiveTokenize scores 10 0 e = .ok toks := by
  have hne : ∀ w ∈ e :: rest, w ≠ [] := fun w hw => splitWs_nonempty (h ▸ hw)
  obtain ⟨toks, h4, _⟩ := C14_tiles scores 10 (by omega) 0 e (hne e (by simp))
  obtain ⟨tss, h1⟩ := mapM_all_ok scores rest (fun w hw => hne w (by simp [hw]))
  refine ⟨toks, ?_, h4⟩
  unfold V2.decompose MaxScore.tokenizeSpans
  rw [h]
  simp [List.mapM_cons, h4, h1, bind, Except.bind, pure, Except.pure]

private theorem parts_ok (pos : List Str) (scores : Dict Str Rat) (word e : Str) (rest : List Str) (h : splitWs word = e :: rest) :
    ∃ o, V2.compoundParts pos scores word = .ok o ∧ ∀ ps, o = some ps → NounChain49 pos scores e ps := by
  have hne : e ≠ [] := splitWs_nonempty (s := word) (by rw [h]; simp)
  obtain ⟨toks, h1, h2⟩ := decompose_ok scores word e rest h
  obtain ⟨toks', h3, h4⟩ := C14_tiles scores 10 (by omega) 0 e hne
  rw [h2] at h3
  have := Except.ok.inj h3
  subst this
  obtain ⟨_, hfl, hpne⟩ := tiles_flatten h4 (Nat.le_refl _)
  have hsc := MaxScore.recursive_score scores 10 0 e toks h2
  have hwords : (toks.map (·.word)).flatten = e := by
    have h8 : (toks.map (fun t => (t.word, t.b, t.e))).map (·.1) = toks.map (·.word) := by simp
    rw [h8] at hfl
    simpa using hfl
  have hwne : ∀ t ∈ toks, t.word ≠ [] := fun t ht => hpne (t.word, t.b, t.e) (List.mem_map.2 ⟨t, ht, rfl⟩)
  have hnoun : ∀ t ∈ toks, 0 < t.score → ∃ x, Dict.get? scores t.word = some x ∧ 0 < x := by
    intro t ht h0
    rcases hsc t ht with h | h
    · rw [h] at h0; exact absurd h0 (lt_irrefl _)
    · rw [h] at h0
      cases hg : Dict.get? scores t.word with
      | none =>
        have : Dict.getD scores t.word 0 = 0 := by show (Dict.get? scores t.word).getD 0 = 0; rw [hg]; rfl
        rw [this] at h0; exact absurd h0 (lt_irrefl _)
      | some x =>
        have : Dict.getD scores t.word 0 = x := by show (Dict.get? scores t.word).getD 0 = x; rw [hg]; rfl
        rw [this] at h0
        exact ⟨x, rfl, h0⟩
  unfold V2.compoundParts
  rw [h1]
  dsimp only
  unfold V2.parseCompound
  by_cases ha : toks.dropLast.any (fun t => decide (t.score ≤ 0)) = true
  · rw [if_pos ha]; exact ⟨none, rfl, by simp⟩
  · rw [if_neg ha]
    have hinit : ∀ t ∈ toks.dropLast, 0 < t.score := by
      intro t ht
      by_contra hn
      apply ha
      rw [List.any_eq_true]
      exact ⟨t, ht, decide_eq_true (not_lt.1 hn)⟩
    cases hl : toks.getLast? with
    | none =>
      rw [List.getLast?_eq_none_iff] at hl
      subst hl
      exact absurd hwords.symm hne
    | some last =>
      dsimp only
      have hsplit : toks = toks.dropLast ++ [last] := by
        have hne' : toks ≠ [] := by rintro rfl; simp at hl
        have := (List.dropLast_append_getLast hne').symm
        rw [List.getLast?_eq_some_getLast hne'] at hl
        rw [Option.some.inj hl] at this
        exact this
      by_cases h3 : toks.length ≥ 3 ∧ pos.contains last.word = true
      · rw [if_pos h3]
        refine ⟨_, rfl, ?_⟩
        intro ps hps
        have := Option.some.inj hps
        subst this
        refine ⟨?_, ?_, Or.inr ⟨?_, last.word, by simpa using h3.2, ?_, ?_⟩⟩
        · intro h0
          have := congrArg List.length h0
          simp at this; omega
        · intro q hq
          obtain ⟨t, ht, rfl⟩ := List.mem_map.1 hq
          have ht' := List.mem_of_mem_dropLast ht
          exact ⟨hwne t ht', hnoun t ht' (hinit t ht)⟩
        · simp; omega
        · exact hwne last (by rw [hsplit]; simp)
        · rw [← hwords]
          rw [hsplit]
          simp
      · rw [if_neg h3]
        by_cases h5 : last.score > 0
        · rw [if_pos h5]
          refine ⟨_, rfl, ?_⟩
          intro ps hps
          have := Option.some.inj hps
          subst this
          refine ⟨?_, ?_, Or.inl hwords⟩
          · intro h0
            rw [List.map_eq_nil_iff] at h0
            subst h0; simp at hl
          · intro q hq
            obtain ⟨t, ht, rfl⟩ := List.mem_map.1 hq
            refine ⟨hwne t ht, hnoun t ht ?_⟩
            have hq' := ht
            rw [hsplit] at hq'
            rcases List.mem_append.1 hq' with hq' | hq'
            · exact hinit t hq'
            · rw [List.mem_singleton] at hq'; subst hq'; exact h5
        · rw [if_neg h5]; exact ⟨none, rfl, by simp⟩

/-- C49: `decompose_compound(word)` raises AttributeError before compounds were extracted and IndexError for a word without
    any non-blank character; otherwise it returns `(word,)` or a chain of known nouns that makes up the first
    blank-separated piece of the word (nothing is said of later pieces: they are dropped), up to a josa. -/
theorem C49_decompose (s : V2.State) (word : Str) :
    (s.decomposer = none → V2.decomposeCompound s word = .error .attributeError) ∧
    (∀ scores, s.decomposer = some scores → splitWs word = [] → V2.decomposeCompound s word = .error .indexError) ∧
    (∀ scores e rest, s.decomposer = some scores → splitWs word = e :: rest → ∃ parts, V2.decomposeCompound s word = .ok parts ∧
      (parts = [word] ∨ NounChain49 s.feats.pos scores e parts)) := by
  refine ⟨?_, ?_, ?_⟩
  · intro h
    unfold V2.decomposeCompound
    rw [h]
  · intro scores h hw
    unfold V2.decomposeCompound V2.compoundParts V2.decompose MaxScore.tokenizeSpans
    rw [h, hw]
    rfl
  · intro scores e rest h hw
    obtain ⟨o, h1, h2⟩ := parts_ok s.feats.pos scores word e rest hw
    unfold V2.decomposeCompound
    rw [h]
    dsimp only
    rw [h1]
    match o with
    | none => exact ⟨[word], rfl, Or.inl rfl⟩
    | some [] => exact ⟨[word], rfl, Or.inl rfl⟩
    | some (q :: qs) => exact ⟨q :: qs, rfl, Or.inr (h2 _ rfl)⟩

/-- C49: exactly what `decompose_compound` returns. A first piece of at most two characters is never decomposed. A longer one is cut as in
    C15 (greedy choice among its substrings of two to ten characters). The last piece is dropped as a josa if at least two pieces stand
    before it and it is a positive feature; then all pieces left must have a positive score; otherwise the word is returned as it is. -/
theorem C49_decompose_exact (s : V2.State) (scores : Dict Str Rat) (hs : s.decomposer = some scores) (word e : Str) (rest : List Str)
    (hw : splitWs word = e :: rest) :
    (e.length ≤ 2 → V2.decomposeCompound s word = .ok [word]) ∧
    (2 < e.length → ∃ (front : List MaxScore.Tok) (last : MaxScore.Tok) (chosen : List (Nat × Nat)),
      GreedyPick (fun x y => RanksBefore scores 0 e x.1 x.2 y.1 y.2) 101 (fun x => Eligible 10 e x.1 x.2) chosen ∧
      Spec.Tiles e 0 e.length ((front ++ [last]).map (fun t => (t.word, t.b, t.e))) ∧
      (∀ t, t ∈ front ++ [last] ↔ t.word = (e.take t.e).drop t.b ∧ t.len = t.e - t.b ∧
        (((t.b, t.e) ∈ chosen ∧ t.score = spanScore scores 0 e t.b t.e) ∨
         (GapOf e.length chosen t.b t.e ∧ t.score = if t.b = 0 ∨ t.e = e.length then spanScore scores 0 e t.b t.e else 0))) ∧
      ((∃ t ∈ front, t.score ≤ 0) → V2.decomposeCompound s word = .ok [word]) ∧
      ((∀ t ∈ front, 0 < t.score) → 2 ≤ front.length → last.word ∈ s.feats.pos → V2.decomposeCompound s word = .ok (front.map (·.word))) ∧
      ((∀ t ∈ front, 0 < t.score) → ¬ (2 ≤ front.length ∧ last.word ∈ s.feats.pos) →
        V2.decomposeCompound s word = .ok (if 0 < last.score then front.map (·.word) ++ [last.word] else [word]))) := by
  obtain ⟨toks, h1, h2⟩ := decompose_ok scores word e rest hw
  have hdec : ∀ front last, toks = front ++ [last] → V2.decomposeCompound s word =
      (if front.any (fun t => decide (t.score ≤ 0)) then .ok [word]
       else if 2 ≤ front.length ∧ last.word ∈ s.feats.pos then .ok (front.map (·.word))
       else .ok (if 0 < last.score then front.map (·.word) ++ [last.word] else [word])) := by
    intro front last ht
    unfold V2.decomposeCompound V2.compoundParts
    rw [hs]
    dsimp only
    rw [h1]
    dsimp only
    unfold V2.parseCompound
    rw [ht, List.dropLast_concat, List.getLast?_concat]
    dsimp only
    by_cases ha : front.any (fun t => decide (t.score ≤ 0)) = true
    · rw [if_pos ha, if_pos ha]; rfl
    · rw [if_neg ha, if_neg ha]
      by_cases hj : 2 ≤ front.length ∧ last.word ∈ s.feats.pos
      · have hf : front ≠ [] := by rintro rfl; simp at hj
        rw [if_pos hj, if_pos ⟨by simp; omega, by simpa using hj.2⟩]
        cases front with
        | nil => exact absurd rfl hf
        | cons x xs => rfl
      · rw [if_neg hj, if_neg (by rintro ⟨h3, h4⟩; apply hj; refine ⟨?_, by simpa using h4⟩; rw [List.length_append, List.length_singleton] at h3; omega)]
        by_cases h0 : last.score > 0
        · rw [if_pos h0, if_pos h0, List.map_append]
          cases front <;> rfl
        · rw [if_neg h0, if_neg h0]; rfl
  constructor
  · intro hl
    rw [C15_short scores 10 0 e hl] at h2
    rw [hdec [] _ (Except.ok.inj h2).symm, if_neg (by simp), if_neg (by simp), if_neg (lt_irrefl _)]
  · intro hl
    obtain ⟨toks', chosen, e1, e2, e3, e4⟩ := C15_exact scores 10 (by omega) 0 e hl
    rw [h2] at e1
    have := Except.ok.inj e1
    subst this
    have hne : toks ≠ [] := by
      rintro rfl
      have := (tiles_flatten e3 (Nat.le_refl _)).2.1
      simp at this
      rw [this] at hl
      simp at hl
    have hsplit : toks = toks.dropLast ++ [toks.getLast hne] := (List.dropLast_append_getLast hne).symm
    refine ⟨toks.dropLast, toks.getLast hne, chosen, e2, by rw [← hsplit]; exact e3, fun t => by rw [← hsplit]; exact e4 t, ?_, ?_, ?_⟩
    all_goals rw [hdec _ _ hsplit]
    · rintro ⟨t, ht, h0⟩
      rw [if_pos (List.any_eq_true.2 ⟨t, ht, decide_eq_true h0⟩)]
    · intro h h3 h4
      rw [if_neg (by rw [List.any_eq_true]; rintro ⟨t, ht, h0⟩; exact absurd (h t ht) (not_lt.2 (of_decide_eq_true h0))), if_pos ⟨h3, h4⟩]
    · intro h h3
      rw [if_neg (by rw [List.any_eq_true]; rintro ⟨t, ht, h0⟩; exact absurd (h t ht) (not_lt.2 (of_decide_eq_true h0))), if_neg h3]

/-- two nouns and a josa: the josa is dropped; an unknown piece: no decomposition -/
example : V2.decomposeCompound { feats := { pos := [['는']], neg := [], common := [] }, decomposer := some [("학교".toList, 2), ("생활".toList, 2)] } "학교생활는".toList
      = .ok ["학교".toList, "생활".toList] ∧
    V2.decomposeCompound { feats := { pos := [['는']], neg := [], common := [] }, decomposer := some [("학교".toList, 2)] } "학교생활".toList = .ok ["학교생활".toList] := by
  decide +kernel

/-! ### extract_compounds -/

/-- the words the extractor takes for nouns when it looks for compounds: those scored above the threshold, of more than one
    character, each weighted by its length -/
def IsNoun49 (ps : Dict Str (Rat × Rat)) (m : Rat) (w : Str) : Prop := 1 < w.length ∧ ∃ x, Dict.get? ps w = some x ∧ m < x.2

private theorem get?_map_snd {ν μ : Type} (l : List (Str × ν)) (f : Str → ν → μ) (k : Str) :
    Dict.get? (l.map (fun e => (e.1, f e.1 e.2))) k = (Dict.get? l k).map (f k) := by
  induction l with
  | nil => rfl
  | cons e l ih =>
    rw [List.map_cons, Dict.get?_cons]
    show _ = (Dict.get? ((e.1, e.2) :: l) k).map (f k)
    rw [Dict.get?_cons, ih]
    by_cases h : e.1 = k
    · rw [if_pos h, if_pos h, h]; rfl
    · rw [if_neg h, if_neg h]

private theorem get?_nounScores {ps : Dict Str (Rat × Rat)} (hw : ps.WF) (m : Rat) (w : Str) (y : Rat) :
    Dict.get? (V2.nounScores ps m) w = some y ↔ IsNoun49 ps m w ∧ y = (w.length : Rat) := by
  unfold V2.nounScores IsNoun49
  rw [get?_map_snd _ (fun k (_ : Rat × Rat) => (k.length : Rat)), Dict.get?_filter hw]
  cases hg : Dict.get? ps w with
  | none => simp
  | some x =>
    simp only [Option.filter]
    by_cases h1 : m < x.2 <;> by_cases h2 : 1 < w.length <;> simp [h1, h2, eq_comm]

/-- C49: what `extract_compounds` finds. It fails without the original graph, and otherwise unless some left part of four or
    more characters is blank. It makes the nouns (weighted by their lengths) the decomposer. A word `n` is a compound exactly
    when some left part of at least four characters that is no noun itself decomposes into a chain with the text `n`; its
    count is the number of times these left parts were whole eojeols originally, its score the largest of the noun scores
    of these chains' members (0 at least), and its components are one of these chains. The pair stored is
    `(score, count)`. -/
theorem C49_compounds (F : V2.Features) (g : LR.State) (ps : Dict Str (Rat × Rat)) (hps : ps.WF) (m : Rat) :
    (g.origin = none → V2.extractCompounds F g ps m = .error .attributeError) ∧
    (∀ o, g.origin = some o → Dict.WF o → (∀ l ∈ Dict.keys o, splitWs l ≠ []) → ∃ C, V2.extractCompounds F g ps m = .ok C ∧
      (∀ w y, Dict.get? C.decomposer w = some y ↔ IsNoun49 ps m w ∧ y = (w.length : Rat)) ∧
      ∃ found : List (Str × List Str), (found.map (·.1)).Nodup ∧
        (∀ l parts, (l, parts) ∈ found ↔ l ∈ Dict.keys o ∧ 4 ≤ l.length ∧ ¬ IsNoun49 ps m l ∧ parts ≠ [l] ∧
          V2.decomposeCompound { feats := F, decomposer := some C.decomposer } l = .ok parts) ∧
        Dict.WF C.compounds ∧
        (∀ n, n ∈ Dict.keys C.compounds ↔ ∃ lp ∈ found, lp.2.flatten = n) ∧
        (∀ n x, Dict.get? C.compounds n = some x →
          x.2 = ((((found.filter (fun lp => decide (lp.2.flatten = n))).map (fun lp => Dict.getD (Nested.row o lp.1) [] 0)).sum : Int) : Rat) ∧
          0 ≤ x.1 ∧ (∀ lp ∈ found, lp.2.flatten = n → ∀ q ∈ lp.2, ∀ y, Dict.get? ps q = some y → y.2 ≤ x.1) ∧
          (x.1 = 0 ∨ ∃ lp ∈ found, lp.2.flatten = n ∧ ∃ q ∈ lp.2, ∃ y, Dict.get? ps q = some y ∧ x.1 = y.2)) ∧
        (∀ n, n ∈ Dict.keys C.components ↔ n ∈ Dict.keys C.compounds) ∧
        (∀ n q, Dict.get? C.components n = some q → q.flatten = n ∧ ∃ lp ∈ found, lp.2 = q)) := by
  constructor
  · intro h
    unfold V2.extractCompounds
    rw [h]
  · intro o ho hwo hsp
    have hun : V2.extractCompounds F g ps m = (match V2.compoundGo F.pos (V2.nounScores ps m) ps
        { candidates := V2.compoundCandidates o (V2.nounScores ps m), graph := g } (sorted V2.longerPairLe (V2.compoundCandidates o (V2.nounScores ps m))) with
      | .error e => .error e
      | .ok a => .ok { decomposer := V2.nounScores ps m, components := a.components, graph := a.graph
                       compounds := a.scores.map (fun e => (e.1, (e.2, ((Dict.getD a.counts e.1 0 : Int) : Rat)))) }) := by
      unfold V2.extractCompounds
      rw [ho]
      rfl
    generalize hS : V2.nounScores ps m = S at hun
    have hSg : ∀ w y, Dict.get? S w = some y ↔ IsNoun49 ps m w ∧ y = (w.length : Rat) := by
      intro w y; rw [← hS]; exact get?_nounScores hps m w y
    have hShas : ∀ w, Dict.has S w = true ↔ IsNoun49 ps m w := by
      intro w
      show (Dict.get? S w).isSome = true ↔ _
      rw [Option.isSome_iff_exists]
      constructor
      · rintro ⟨y, hy⟩; exact ((hSg w y).1 hy).1
      · intro h; exact ⟨_, (hSg w _).2 ⟨h, rfl⟩⟩
    generalize hK : V2.compoundCandidates o S = K at hun
    have hKw : Dict.WF K := by
      rw [← hK]
      unfold V2.compoundCandidates Dict.WF Dict.keys
      rw [List.map_map]
      exact hwo.filter _
    have hKm : ∀ w n, (w, n) ∈ K ↔ w ∈ Dict.keys o ∧ 4 ≤ w.length ∧ ¬ IsNoun49 ps m w ∧ n = Dict.getD (Nested.row o w) [] 0 := by
      intro w n
      rw [← hK]
      unfold V2.compoundCandidates
      rw [List.mem_map]
      constructor
      · rintro ⟨⟨l, t⟩, hm, he⟩
        obtain ⟨hm, hc⟩ := List.mem_filter.1 hm
        have e1 := congrArg Prod.fst he
        have e2 := congrArg Prod.snd he
        dsimp only at e1 e2
        subst e1
        simp only [Bool.and_eq_true, decide_eq_true_eq, Bool.not_eq_true', ge_iff_le] at hc
        refine ⟨List.mem_map.2 ⟨_, hm, rfl⟩, hc.1, ?_, ?_⟩
        · rw [← hShas, hc.2]; simp
        · rw [← e2]
          unfold Nested.row
          rw [Dict.get?_of_mem hwo hm]; rfl
      · rintro ⟨h1, h2, h3, h4⟩
        obtain ⟨⟨l, t⟩, hm, e1⟩ := List.mem_map.1 h1
        dsimp only at e1
        subst e1
        refine ⟨(l, t), List.mem_filter.2 ⟨hm, ?_⟩, ?_⟩
        · rw [← hShas] at h3
          simp [h2, h3]
        · rw [h4]
          unfold Nested.row
          rw [Dict.get?_of_mem hwo hm]; rfl
    have hok : ∀ w ∈ sorted V2.longerPairLe K, ∃ o, V2.compoundParts F.pos S w.1 = .ok o := by
      rintro ⟨w, n⟩ hm
      have h1 := ((hKm w n).1 (mem_sorted.1 hm)).1
      cases hs : splitWs w with
      | nil => exact absurd hs (hsp w h1)
      | cons e rest =>
        obtain ⟨o, h, _⟩ := parts_ok F.pos S w e rest hs
        exact ⟨o, h⟩
    rw [V2.compoundGo_eq _ _ _ _ _ hok] at hun
    dsimp only at hun
    have hne := V2.hits_ne F.pos S (sorted V2.longerPairLe K)
    have hcol := V2.collected ps (V2.hits F.pos S (sorted V2.longerPairLe K)) (fun h hh => (hne h hh).2.2) K g
    generalize hA : (V2.hits F.pos S (sorted V2.longerPairLe K)).foldl (V2.addHit ps) { candidates := K, graph := g } = A at hun hcol
    generalize hH : V2.hits F.pos S (sorted V2.longerPairLe K) = H at hcol hne
    have hdec : ∀ l parts, l ∈ Dict.keys o → ¬ IsNoun49 ps m l → (V2.partsOf F.pos S l = some parts ↔
        parts ≠ [l] ∧ V2.decomposeCompound { feats := F, decomposer := some S } l = .ok parts) := by
      intro l parts hl hnn
      cases hs : splitWs l with
      | nil => exact absurd hs (hsp l hl)
      | cons e rest =>
        obtain ⟨o', h1, h2⟩ := parts_ok F.pos S l e rest hs
        unfold V2.partsOf V2.decomposeCompound
        dsimp only
        rw [h1]
        have hself : ∀ ps', NounChain49 F.pos S e ps' → ps' ≠ [l] := by
          rintro ps' hc rfl
          obtain ⟨_, x, hx, _⟩ := hc.nouns l (by simp)
          exact hnn ((hSg l x).1 hx).1
        match o' with
        | none =>
          simp only [Except.map]
          constructor
          · intro h; cases h
          · rintro ⟨h, h'⟩; exact absurd (Except.ok.inj h').symm h
        | some [] =>
          simp only [Except.map]
          constructor
          · intro h; cases h
          · rintro ⟨h, h'⟩; exact absurd (Except.ok.inj h').symm h
        | some (q :: qs) =>
          simp only [Except.map]
          constructor
          · intro h
            have := Option.some.inj h
            subst this
            exact ⟨hself _ (h2 _ rfl), rfl⟩
          · rintro ⟨_, h'⟩
            rw [Except.ok.inj h']
    have hHm : ∀ l n parts, ((l, n), parts) ∈ H ↔ (l, n) ∈ K ∧ V2.partsOf F.pos S l = some parts := by
      intro l n parts
      rw [← hH]
      unfold V2.hits
      rw [List.mem_filterMap]
      constructor
      · rintro ⟨⟨l', n'⟩, hm, he⟩
        dsimp only at he
        cases hp : V2.partsOf F.pos S l' with
        | none => rw [hp] at he; cases he
        | some q =>
          rw [hp] at he
          have := Option.some.inj he
          have e1 := congrArg (fun x => x.1.1) this
          have e2 := congrArg (fun x => x.1.2) this
          have e3 := congrArg (fun x => x.2) this
          dsimp only at e1 e2 e3
          subst e1 e2 e3
          exact ⟨mem_sorted.1 hm, hp⟩
      · rintro ⟨hm, hp⟩
        exact ⟨(l, n), mem_sorted.2 hm, by dsimp only; rw [hp]; rfl⟩
    have hHn : (H.map (fun h => h.1.1)).Nodup := by
      have hsub : ∀ ws : List (Str × Int), ((V2.hits F.pos S ws).map (fun h => h.1.1)).Sublist (ws.map (·.1)) := by
        intro ws
        induction ws with
        | nil => exact List.Sublist.slnil
        | cons w ws ih =>
          unfold V2.hits at ih ⊢
          rw [List.filterMap_cons]
          cases hp : V2.partsOf F.pos S w.1 with
          | none => exact ih.cons _
          | some q => exact ih.cons_cons _
      rw [← hH]
      refine List.Nodup.sublist (hsub _) ?_
      exact ((sorted_perm V2.longerPairLe K).map _).nodup_iff.2 hKw
    refine ⟨_, hun, hSg, H.map (fun h => (h.1.1, h.2)), ?_, ?_, ?_, ?_, ?_, ?_, ?_⟩
    · rw [List.map_map]; exact hHn
    · intro l parts
      rw [List.mem_map]
      constructor
      · rintro ⟨⟨⟨l', n⟩, q⟩, hm, he⟩
        have e1 := congrArg Prod.fst he
        have e2 := congrArg Prod.snd he
        dsimp only at e1 e2
        subst e1 e2
        obtain ⟨a, b⟩ := (hHm _ _ _).1 hm
        obtain ⟨a1, a2, a3, a4⟩ := (hKm _ _).1 a
        exact ⟨a1, a2, a3, (hdec _ _ a1 a3).1 b⟩
      · rintro ⟨a1, a2, a3, a4⟩
        exact ⟨((l, _), parts), (hHm _ _ _).2 ⟨(hKm _ _).2 ⟨a1, a2, a3, rfl⟩, (hdec _ _ a1 a3).2 a4⟩, rfl⟩
    · unfold Dict.WF Dict.keys
      dsimp only
      rw [List.map_map]
      exact hcol.wf
    · intro n
      have hk : Dict.keys (A.scores.map (fun e => (e.1, (e.2, ((Dict.getD A.counts e.1 0 : Int) : Rat))))) = Dict.keys A.scores := by
        unfold Dict.keys; rw [List.map_map]; rfl
      dsimp only
      rw [hk, hcol.keys]
      constructor
      · rintro ⟨h, hm, he⟩; exact ⟨_, List.mem_map_of_mem (f := fun h : (Str × Int) × List Str => (h.1.1, h.2)) hm, he⟩
      · rintro ⟨x, hm, he⟩
        obtain ⟨h, hm', rfl⟩ := List.mem_map.1 hm
        exact ⟨h, hm', he⟩
    · intro n x hx
      dsimp only at hx
      rw [get?_map_snd A.scores (fun k (y : Rat) => (y, ((Dict.getD A.counts k 0 : Int) : Rat)))] at hx
      cases hsc : Dict.get? A.scores n with
      | none => rw [hsc] at hx; cases hx
      | some y =>
        rw [hsc] at hx
        have := Option.some.inj hx
        subst this
        obtain ⟨h0, h1⟩ := hcol.upper n y hsc
        refine ⟨?_, h0, ?_, ?_⟩
        · dsimp only
          rw [hcol.count]
          congr 1
          rw [List.filter_map, List.map_map]
          congr 1
          apply List.map_congr_left
          rintro ⟨⟨l, k⟩, q⟩ hm
          exact ((hKm l k).1 ((hHm l k q).1 (List.mem_filter.1 hm).1).1).2.2.2
        · intro lp hlp he q hq z hz
          obtain ⟨h, hm, rfl⟩ := List.mem_map.1 hlp
          have := h1 h hm he q hq
          rw [hz] at this
          exact this
        · rcases hcol.attained n y hsc with h | ⟨h, hm, he, q, hq, hy⟩
          · exact Or.inl h
          · by_cases hz : Dict.get? ps q = none
            · rw [hz] at hy; exact Or.inl hy
            · obtain ⟨z, hz⟩ := Option.ne_none_iff_exists'.1 hz
              rw [hz] at hy
              exact Or.inr ⟨_, List.mem_map_of_mem (f := fun h : (Str × Int) × List Str => (h.1.1, h.2)) hm, he, q, hq, z, hz, hy⟩
    · intro n
      have hk : Dict.keys (A.scores.map (fun e => (e.1, (e.2, ((Dict.getD A.counts e.1 0 : Int) : Rat))))) = Dict.keys A.scores := by
        unfold Dict.keys; rw [List.map_map]; rfl
      dsimp only
      rw [hk]
      exact hcol.comp n
    · intro n q hq
      obtain ⟨h, hm, e1, e2⟩ := hcol.comp_of n q hq
      exact ⟨e2, _, List.mem_map_of_mem (f := fun h : (Str × Int) × List Str => (h.1.1, h.2)) hm, e1⟩

/-! ### what becomes of the compounds -/

private theorem get?_updateDict (a : Dict Str (Rat × Rat)) (b : Dict Str (Rat × Rat)) (hb : b.WF) (k : Str) :
    Dict.get? (V2.updateDict a b) k = if k ∈ Dict.keys b then Dict.get? b k else Dict.get? a k := by
  unfold V2.updateDict
  induction b generalizing a with
  | nil => simp [Dict.keys]
  | cons e b ih =>
    simp only [Dict.WF, Dict.keys, List.map_cons, List.nodup_cons] at hb
    rw [List.foldl_cons, ih _ hb.2]
    show _ = if k ∈ Dict.keys (e :: b) then Dict.get? ((e.1, e.2) :: b) k else _
    rw [Dict.get?_cons, Dict.get?_set]
    simp only [Dict.keys, List.map_cons, List.mem_cons]
    by_cases h : e.1 = k
    · subst h
      rw [if_neg hb.1, if_pos rfl, if_pos (Or.inl rfl), if_pos rfl]
    · by_cases h2 : k ∈ b.map (·.1)
      · rw [if_pos h2, if_pos (Or.inr h2), if_neg h]
      · rw [if_neg h2, if_neg h, if_neg (by rintro (h' | h'); exact h h'.symm; exact h2 h')]

private theorem wf_updateDict {a : Dict Str (Rat × Rat)} (ha : a.WF) (b : Dict Str (Rat × Rat)) : Dict.WF (V2.updateDict a b) := by
  unfold V2.updateDict
  induction b generalizing a with
  | nil => exact ha
  | cons e b ih => exact ih (ha.set _ _)

/-- C49: the nouns reported before post-processing: the compounds with a score (their first component) of at least
    `min_noun_frequency`, and those words that are no compounds, score at least `min_noun_score` and occur at least
    `min_noun_frequency` times. -/
theorem C49_combined (d comp : Dict Str (Rat × Rat)) (hd : d.WF) (hc : comp.WF) (m f : Rat) (w : Str) (x : Rat × Rat) :
    Dict.get? (V2.combine d comp m f) w = some x ↔
      f ≤ x.1 ∧ (Dict.get? comp w = some x ∨ (w ∉ Dict.keys comp ∧ Dict.get? d w = some x ∧ m ≤ x.2)) := by
  unfold V2.combine
  rw [Dict.get?_filter (wf_updateDict (hd.filter _) _), get?_updateDict _ _ hc, Dict.get?_filter hd]
  have key : ∀ (o : Option (Rat × Rat)) (q : Rat × Rat → Bool), o.filter q = some x ↔ o = some x ∧ q x = true := by
    intro o q
    cases o with
    | none => simp
    | some y =>
      simp only [Option.filter]
      by_cases hq : q y = true
      · rw [if_pos hq]
        constructor
        · intro h; exact ⟨h, (Option.some.inj h) ▸ hq⟩
        · rintro ⟨h, _⟩; exact h
      · rw [if_neg hq]
        constructor
        · intro h; cases h
        · rintro ⟨h, h2⟩; exact absurd ((Option.some.inj h).symm ▸ h2) hq
  rw [key]
  by_cases hk : w ∈ Dict.keys comp
  · rw [if_pos hk]
    simp only [decide_eq_true_eq, ge_iff_le]
    constructor
    · rintro ⟨h1, h2⟩; exact ⟨h2, Or.inl h1⟩
    · rintro ⟨h1, h2 | h2⟩
      · exact ⟨h2, h1⟩
      · exact absurd hk h2.1
  · rw [if_neg hk, key]
    have : Dict.get? comp w ≠ some x := by
      intro h
      exact hk ((Dict.isSome_get?_iff _ _).1 (by rw [h]; rfl))
    simp only [decide_eq_true_eq, ge_iff_le]
    constructor
    · rintro ⟨⟨h1, h2⟩, h3⟩; exact ⟨h3, Or.inr ⟨hk, h1, h2⟩⟩
    · rintro ⟨h1, h2 | h2⟩
      · exact absurd h2 this
      · exact ⟨⟨h2.2.1, h2.2.2⟩, h1⟩

/-- C49: since noun scores are at most 1, `min_noun_frequency > 1` throws every compound away, and with it the accepted noun of
    the same text. -/
theorem C49_dropped (d comp : Dict Str (Rat × Rat)) (hd : d.WF) (hc : comp.WF) (hle : ∀ w x, Dict.get? comp w = some x → x.1 ≤ 1)
    (m f : Rat) (hf : 1 < f) (w : Str) (hw : w ∈ Dict.keys comp) : w ∉ Dict.keys (V2.combine d comp m f) := by
  intro h
  obtain ⟨x, hx⟩ := Option.isSome_iff_exists.1 ((Dict.isSome_get?_iff _ _).2 h)
  rw [C49_combined d comp hd hc] at hx
  obtain ⟨h1, h2 | h2⟩ := hx
  · exact absurd (le_trans h1 (hle w x h2)) (not_le.2 hf)
  · exact h2.1 hw

/-! ### concrete cases -/

private def exScores : Dict Str Rat := [("대학교".toList, 3), ("병원".toList, 2), ("안내".toList, 2)]
private def exS : V2.State := { feats := { pos := ["에서".toList] }, decomposer := some exScores }
example : V2.decomposeCompound exS "대학교병원".toList = .ok ["대학교".toList, "병원".toList] := by decide +kernel
example : V2.decomposeCompound exS "대학교병원에서".toList = .ok ["대학교".toList, "병원".toList] := by decide +kernel
/-- what follows the first blank is dropped -/
example : V2.decomposeCompound exS "대학교병원 안내".toList = .ok ["대학교".toList, "병원".toList] := by decide +kernel
example : V2.decomposeCompound exS "대학교병실".toList = .ok ["대학교병실".toList] := by decide +kernel
/-- a single noun with a josa is not a chain -/
example : V2.decomposeCompound exS "대학교에서".toList = .ok ["대학교에서".toList] := by decide +kernel
example : V2.decomposeCompound exS " ".toList = .error .indexError := by decide +kernel

private def exPs : Dict Str (Rat × Rat) := [("대학교".toList, (7, 1)), ("병원".toList, (4, 9/10)), ("학".toList, (2, 1)), ("안내".toList, (9, 1/5))]
private def exO : Nested Str := [("대학교병원".toList, [([], 3), ("은".toList, 1)]), ("대학교병원에서".toList, [([], 2)]), ("대학교안내".toList, [([], 5)])]
/-- two left parts with the same compound: score 1, count 5; 안내 is below the threshold -/
example : (V2.extractCompounds { pos := ["에서".toList] } { origin := some exO } exPs).map (·.compounds) =
    (.ok [("대학교병원".toList, (1, 5))] : PyM (List (Str × Rat × Rat))) := by decide +kernel
/-- and with `min_noun_frequency=2` it is gone although it occurred five times -/
example : (V2.combine exPs [("대학교병원".toList, (1, 5))] (3/10) 2) =
    ([("대학교".toList, (7, 1)), ("병원".toList, (4, 9/10)), ("학".toList, (2, 1))] : List (Str × Rat × Rat)) := by decide +kernel

/-! ### no failure -/

theorem counter_words {p : EC.Params} {sents : List Str} {c : EC.State} (h : EC.construct p (some sents) = .ok c) :
    ∀ e ∈ Dict.keys c.counter, ∀ ch ∈ e, isSpace ch = false := by
  intro e he
  unfold EC.construct EC.counting EC.checkCorpus at h
  simp only [bind, Except.bind, pure, Except.pure] at h
  by_cases hs : sents.length ≤ 0
  · rw [if_pos hs] at h; cases h
  · rw [if_neg hs] at h
    have := Except.ok.inj h
    subst this
    dsimp only at he
    obtain ⟨⟨e', n⟩, hm, rfl⟩ := List.mem_map.1 he
    unfold EC.filterMin at hm
    have hm := (List.mem_filter.1 hm).1
    have hinv := EC.foldl_countSent_inv p sents.zipIdx [] ⟨Dict.wf_nil, by simp⟩
    have hget := Dict.get?_of_mem hinv.1 hm
    have hn := (hinv.2 _ hm).1
    have hg : Dict.getD (sents.zipIdx.foldl (EC.countSent p) []) e' 0 = n := by
      show (Dict.get? _ e').getD 0 = n; rw [hget]; rfl
    by_cases hl : (e'.length : Int) ≤ p.maxLength
    · have hb := (EC.foldl_countSent_bounds p sents 0 [] ⟨Dict.wf_nil, by simp⟩ e' hl).1
      rw [hg] at hb
      have h0 : Dict.getD ([] : Dict Str Int) e' 0 = 0 := rfl
      rw [h0] at hb
      have hpos : 0 < EC.occ p sents e' := by omega
      unfold EC.occ at hpos
      have hmem := List.count_pos_iff.1 hpos
      obtain ⟨s, _, hw⟩ := List.mem_flatMap.1 hmem
      exact splitWs_nospace hw
    · have := EC.foldl_countSent_long p sents 0 [] ⟨Dict.wf_nil, by simp⟩ e' hl rfl
      rw [hg] at this
      dsimp only at hn
      omega

theorem v2_splitWs_ne_nil {w : Str} (hne : w ≠ []) (h : ∀ c ∈ w, isSpace c = false) : splitWs w ≠ [] := by
  intro h0
  have := splitWs_flatten w
  rw [h0] at this
  cases w with
  | nil => exact hne rfl
  | cons c w => simp [h c (by simp)] at this

/-- C49: extraction after training with sentences: it always succeeds, unless it has to report the share of covered
    eojeols while no eojeol was counted. -/
theorem C49_total (p : V2.Params) (hl : 1 < p.maxLeft) (hr : 0 < p.maxRight) (s : V2.State) (sents : List Str) (hne : sents ≠ []) (mf : Int)
    (entLt : List Int → Rat → Bool) (enum : Nat → List Str → List Str) (henum : ∀ i l, (enum i l).Perm l) (m f : Rat) (reset : Bool) :
    ∃ s', V2.trainWithSentences p s sents mf = .ok s' ∧
      ((p.verbose = true ∧ s'.numEojeols = 0) → V2.extract p entLt enum s' m f reset = .error .zeroDivision) ∧
      (¬ (p.verbose = true ∧ s'.numEojeols = 0) → ∃ s'' nouns, V2.extract p entLt enum s' m f reset = .ok (s'', nouns)) := by
  obtain ⟨c, s', hc, hw, hp, hsum, ht, ht'⟩ := (C54_sentences p s sents mf).2 hne hl hr
  obtain ⟨g', hg', _, hnum, hfr, hlr⟩ := trained hw hp hsum ht
  obtain ⟨d, g, hg, htab, hex⟩ := C54_extract p s s' c hw hp hsum ht entLt enum henum m f reset
  have : g = g' := Option.some.inj (hg.symm.trans hg')
  subst this
  have hcomp : ∃ cs, (if p.extractCompound then (V2.extractCompounds s.feats g d m).map (·.compounds) else .ok []) = .ok cs := by
    by_cases hx : p.extractCompound = true
    · rw [if_pos hx]
      obtain ⟨C, hC, _⟩ := (C49_compounds s.feats g d htab.wf m).2 g.lr hfr.origin hfr.cons.inv.lr.outer (by
        intro l hl
        obtain ⟨⟨l', t⟩, hm, e0⟩ := List.mem_map.1 hl
        dsimp only at e0
        subst e0
        have htne := hfr.cons.inv.lr.nonempty _ _ hm
        obtain ⟨⟨r, n⟩, hrm⟩ := List.exists_mem_of_ne_nil _ htne
        have hg2 : get2 g.lr l' r = some n := by
          unfold get2
          rw [Dict.get?_of_mem hfr.cons.inv.lr.outer hm]
          exact Dict.get?_of_mem (hfr.cons.inv.lr.inner _ _ hm) hrm
        rw [hlr, LR.get2_lrOfCounter _ _ hw] at hg2
        have hk : l' ++ r ∈ Dict.keys c.counter := (Dict.isSome_get?_iff _ _).1 (by rw [hg2.2]; rfl)
        have hsp := counter_words hc _ hk
        exact v2_splitWs_ne_nil hg2.1.1 (fun ch hch => hsp ch (List.mem_append_left _ hch)))
      exact ⟨C.compounds, by rw [hC]; rfl⟩
    · rw [if_neg hx]; exact ⟨[], rfl⟩
  obtain ⟨cs, hcs⟩ := hcomp
  obtain ⟨_, h2, h3⟩ := hex _ rfl
  refine ⟨s', ht', ?_, ?_⟩
  · rintro ⟨hv, h0⟩
    exact h2 cs hcs hv (hnum ▸ h0)
  · intro h0
    obtain ⟨s'', nouns, h, _⟩ := h3 cs hcs (by rw [← hnum]; exact h0)
    exact ⟨s'', nouns, h⟩

/-- C49: on a trained extractor, `extract` with `min_noun_frequency > 1` never reports a
    compound: every noun reported is a word of the table with the score and frequency asked for, and no compound. -/
theorem C49_never_reported (p : V2.Params) (s s' : V2.State) (c : EC.State) (hw : c.counter.WF) (hp : ∀ kv ∈ c.counter, 0 < kv.2)
    (hsum : c.countSum = Dict.sumI c.counter) (htrain : V2.trainWithEojeolCounter p s c = .ok s')
    (entLt : List Int → Rat → Bool) (enum : Nat → List Str → List Str) (henum : ∀ i l, (enum i l).Perm l) (m f : Rat) (hf : 1 < f)
    (reset : Bool) (hx : p.extractCompound = true) (hblank : ∀ e ∈ Dict.keys c.counter, ∀ ch ∈ e, isSpace ch = false)
    (s'' : V2.State) (nouns : Dict Str (Rat × Rat)) (hex : V2.extract p entLt enum s' m f reset = .ok (s'', nouns)) :
    ∃ d g C, s'.lrgraph = some g ∧ V2Table p s.feats c.counter m d ∧ V2.extractCompounds s.feats g d m = .ok C ∧
      ∀ w x, Dict.get? nouns w = some x → Dict.get? d w = some x ∧ m ≤ x.2 ∧ f ≤ x.1 ∧ w ∉ Dict.keys C.compounds := by
  obtain ⟨g', hg', _, hnum, hfr, hlr⟩ := trained hw hp hsum htrain
  obtain ⟨d, g, hg, htab, hE⟩ := C54_extract p s s' c hw hp hsum htrain entLt enum henum m f reset
  have : g = g' := Option.some.inj (hg.symm.trans hg')
  subst this
  have hd1 : ∀ w x, Dict.get? d w = some x → x.2 ≤ 1 := by
    intro w x hx
    obtain ⟨row, hr, hpr⟩ := htab.entry w x hx
    have hper : (LR.getR { lr := [(w, row)] } w (-1)).Perm row := by
      have : LR.getR { lr := [(w, row)] } w (-1) = sorted LR.countLe row := by
        unfold LR.getR LR.topK Nested.row
        dsimp only
        rw [Dict.get?_cons, if_pos rfl]; rfl
      rw [this]; exact sorted_perm _ _
    obtain ⟨su, sc, h1, _, h2, _⟩ := C46_v2_bounds p { feats := s.feats, lrgraph := some { lr := [(w, row)] } } _ rfl w m (by
      rintro ⟨r, n⟩ hm
      exact le_of_lt (hp (w ++ r, n) (Dict.mem_of_get? ((hr.mem r n).1 (hper.mem_iff.1 hm)).1.2.2.2)))
    rw [hpr] at h1
    rw [Except.ok.inj h1]
    exact h2
  obtain ⟨C, hC, hdec, found, hfn, hfm, hCw, hCk, hCx, _⟩ := (C49_compounds s.feats g d htab.wf m).2 g.lr hfr.origin hfr.cons.inv.lr.outer (by
        intro l hl
        obtain ⟨⟨l', t⟩, hm, e0⟩ := List.mem_map.1 hl
        dsimp only at e0
        subst e0
        have htne := hfr.cons.inv.lr.nonempty _ _ hm
        obtain ⟨⟨r, n⟩, hrm⟩ := List.exists_mem_of_ne_nil _ htne
        have hg2 : get2 g.lr l' r = some n := by
          unfold get2
          rw [Dict.get?_of_mem hfr.cons.inv.lr.outer hm]
          exact Dict.get?_of_mem (hfr.cons.inv.lr.inner _ _ hm) hrm
        rw [hlr, LR.get2_lrOfCounter _ _ hw] at hg2
        have hk : l' ++ r ∈ Dict.keys c.counter := (Dict.isSome_get?_iff _ _).1 (by rw [hg2.2]; rfl)
        have hsp := hblank _ hk
        exact v2_splitWs_ne_nil hg2.1.1 (fun ch hch => hsp ch (List.mem_append_left _ hch)))
  have hle : ∀ w x, Dict.get? C.compounds w = some x → x.1 ≤ 1 := by
    intro w x hx
    rcases (hCx w x hx).2.2.2 with h | ⟨_, _, _, q, _, y, hy, h⟩
    · rw [h]; norm_num
    · rw [h]; exact hd1 q y hy
  refine ⟨d, g, C, hg, htab, hC, ?_⟩
  intro w x hwx
  obtain ⟨_, h2, h3⟩ := hE _ rfl
  rw [if_pos hx, hC] at h2 h3
  have hv : ¬ (p.verbose = true ∧ Dict.sumI c.counter = 0) := by
    rintro ⟨h, h'⟩
    have := h2 C.compounds rfl h h'
    rw [hex] at this; cases this
  obtain ⟨s2, n2, h4, h5, _⟩ := h3 C.compounds rfl hv
  rw [hex] at h4
  have e2 : nouns = n2 := congrArg Prod.snd (Except.ok.inj h4)
  subst e2
  have hsub := C47_pipeline_only_removes _ _ _ _ _ _ h5
  have hcw : (V2.combine d C.compounds m f).WF := by
    unfold V2.combine
    exact (wf_updateDict (htab.wf.filter _) _).filter _
  have hget : Dict.get? (V2.combine d C.compounds m f) w = some x := Dict.get?_of_mem hcw (hsub.subset (Dict.mem_of_get? hwx))
  have hnk : w ∉ Dict.keys C.compounds := fun hk =>
    C49_dropped d C.compounds htab.wf hCw hle m f hf w hk ((Dict.isSome_get?_iff _ _).1 (by rw [hget]; rfl))
  rw [C49_combined d C.compounds htab.wf hCw] at hget
  rcases hget with ⟨h6, h7 | h7⟩
  · exact absurd ((Dict.isSome_get?_iff _ _).1 (by rw [h7]; rfl)) hnk
  · exact ⟨h7.2.1, h7.2.2, h6, hnk⟩

end Props
