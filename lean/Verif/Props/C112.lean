import Mathlib.Tactic.ByContra
import Verif.Props.C13
import Verif.Props.C14_C15
import Verif.Props.C18_C19
/-! C112: tokenizing the tokens again. The output of a tokenizer, joined with blanks, is given to the same tokenizer. -/
namespace Props
open Py Spec

/-! ### MaxScoreTokenizer -/

private theorem tiles_disjoint (token : Str) : ∀ (l : List MaxScore.Tok) (i j : Nat), Tiles token i j (l.map MaxScore.Tok.span) →
    ∀ x ∈ l, ∀ y ∈ l, x.b < y.e → y.b < x.e → x = y := by
  intro l
  induction l with
  | nil => intro _ _ _ x hx; cases hx
  | cons c l ih =>
    intro i j h x hx y hy h1 h2
    rw [List.map_cons] at h
    cases h with
    | cons q1 q2 q3 q4 =>
      have hb := (MaxScore.tiles_pairwise q4).1
      rcases List.mem_cons.1 hx with hx' | hx'
      · rcases List.mem_cons.1 hy with hy' | hy'
        · rw [hx', hy']
        · have := hb y hy'; rw [hx'] at h2; omega
      · rcases List.mem_cons.1 hy with hy' | hy'
        · have := hb x hx'; rw [hy'] at h1; omega
        · exact ih _ _ q4 x hx' y hy' h1 h2

private theorem tiles_mem (token : Str) : ∀ (l : List MaxScore.Tok) (i j : Nat), Tiles token i j (l.map MaxScore.Tok.span) →
    ∀ x ∈ l, x.b < x.e ∧ x.e ≤ token.length ∧ x.word = (token.take x.e).drop x.b := by
  intro l
  induction l with
  | nil => intro _ _ _ x hx; cases hx
  | cons c l ih =>
    intro i j h x hx
    rw [List.map_cons] at h
    cases h with
    | cons q1 q2 q3 q4 =>
      rcases List.mem_cons.1 hx with rfl | hx
      · exact ⟨q1, q2, q3⟩
      · exact ih _ _ q4 x hx

private theorem tiles_only {w : Str} {toks : List MaxScore.Tok} (h : Tiles w 0 w.length (toks.map MaxScore.Tok.span)) {t : MaxScore.Tok} (ht : t ∈ toks)
    (h0 : t.b = 0) (h1 : t.e = w.length) : toks = [t] := by
  have hall : ∀ y ∈ toks, y = t := by
    intro y hy
    have := tiles_mem w toks _ _ h y hy
    exact tiles_disjoint w toks _ _ h y hy t ht (by omega) (by omega)
  have hp := (MaxScore.tiles_pairwise h).2
  cases toks with
  | nil => cases ht
  | cons a l =>
    have ha := hall a (by simp)
    cases l with
    | nil => rw [ha]
    | cons b l =>
      have hb := hall b (by simp)
      have := (List.pairwise_cons.1 hp).1 b (by simp)
      rw [ha, hb] at this
      rw [this.1] at this
      cases this.2

private theorem piece_piece (w : Str) (b e b' e' : Nat) (h : b' ≤ e') (he : b + e' ≤ e) : ((((w.take e).drop b).take e').drop b') = (w.take (b + e')).drop (b + b') := by
  rw [List.drop_take, List.drop_take, List.drop_take, List.drop_take, List.take_take, List.drop_drop]
  congr 1
  omega

/-- what a token of the eojeol `w` becomes when it is tokenized on its own: itself, as one token -/
private theorem token_again (scores : Dict Str Rat) (maxLength : Nat) (hm : 2 ≤ maxLength) (ds : Rat) (w : Str) (hw : w ≠ []) (hcut : w.length ≤ 203)
    (toks : List MaxScore.Tok) (h : MaxScore.recursiveTokenize scores maxLength ds w = .ok toks) (t : MaxScore.Tok) (ht : t ∈ toks) :
    ∃ s, MaxScore.recursiveTokenize scores maxLength ds t.word = .ok [s] ∧ s.word = t.word := by
  by_cases hl : t.word.length ≤ 2
  · exact ⟨_, C15_short scores maxLength ds t.word hl, rfl⟩
  · obtain ⟨toks', h1, h2⟩ := C14_tiles scores maxLength hm ds w hw
    rw [h1] at h
    have := Except.ok.inj h
    subst this
    have hmem := tiles_mem w toks' _ _ h2
    have htw := hmem t ht
    have hlen : t.word.length = t.e - t.b := by rw [htw.2.2, List.length_drop, List.length_take]; omega
    obtain ⟨toks2, g1, g2, g3⟩ := C15_greedy scores maxLength hm ds w (by omega) hcut
    rw [h1] at g1
    have := Except.ok.inj g1
    subst this
    have hsp : ∀ b e, b ≤ e → e ≤ t.word.length → spanScore scores ds t.word b e = spanScore scores ds w (t.b + b) (t.b + e) := by
      intro b e hbe he
      unfold spanScore
      rw [htw.2.2, piece_piece w t.b t.e b e hbe (by omega)]
    have hel : Eligible maxLength t.word 0 t.word.length := by
      rcases g3 t ht with g | g
      · obtain ⟨q1, q2, q3⟩ := g
        exact ⟨by omega, by omega, by omega⟩
      · omega
    have hbest : ∀ b e, Eligible maxLength t.word b e → RanksBefore scores ds t.word 0 t.word.length b e := by
      rintro b e ⟨q1, q2, q3⟩
      obtain ⟨u, hu, hue, _, hcase⟩ := g2 (t.b + b) (t.b + e) ⟨by omega, by omega, by omega⟩
      have hut : u = t := by
        have := hmem u hu
        rcases hcase with ⟨a1, a2⟩ | ⟨⟨a1, a2⟩, _⟩
        · exact tiles_disjoint w toks' _ _ h2 u hu t ht (by omega) (by omega)
        · exact tiles_disjoint w toks' _ _ h2 u hu t ht (by omega) (by omega)
      subst hut
      unfold RanksBefore
      rw [hsp b e (by omega) q3, hsp 0 _ (by omega) (Nat.le_refl _), hlen, show u.b + (u.e - u.b) = u.e by omega, Nat.add_zero]
      rcases hcase with ⟨a1, a2⟩ | ⟨_, a⟩
      · right
        rw [← a1, ← a2]
        exact ⟨rfl, Or.inr ⟨by omega, by omega⟩⟩
      · rcases a with a | ⟨a, a'⟩
        · exact Or.inl a
        · refine Or.inr ⟨a, ?_⟩
          omega
    obtain ⟨toks3, k1, s, hs, k2, k3, k4, _⟩ := C15_best_is_output scores maxLength hm ds t.word (by omega) 0 t.word.length hel hbest
    obtain ⟨toks4, m1, m2⟩ := C14_tiles scores maxLength hm ds t.word (by intro h0; rw [h0] at hl; simp at hl)
    rw [k1] at m1
    have := Except.ok.inj m1
    subst this
    rw [tiles_only m2 hs k2 k3] at k1
    exact ⟨s, k1, by rw [k4]; simp⟩

private theorem max_words (scores : Dict Str Rat) (maxLength : Nat) (hm : 2 ≤ maxLength) (ds : Rat) : ∀ ws : List Str, Words ws → (∀ w ∈ ws, w.length ≤ 203) →
    ∃ tss, ws.mapM (MaxScore.recursiveTokenize scores maxLength ds) = .ok tss ∧
      Words (tss.flatMap (fun t => t.map (·.word))) ∧
      ∀ t ∈ tss.flatMap (fun t => t.map (·.word)), ∃ s, MaxScore.recursiveTokenize scores maxLength ds t = .ok [s] ∧ s.word = t := by
  intro ws
  induction ws with
  | nil => exact fun _ _ => ⟨[], rfl, by simp [Words], by simp⟩
  | cons w ws ih =>
    intro hw hl
    obtain ⟨tss, h1, h2, h3⟩ := ih (fun v hv => hw v (by simp [hv])) (fun v hv => hl v (by simp [hv]))
    obtain ⟨hw1, hw2⟩ := hw w (by simp)
    obtain ⟨toks, g1, g2⟩ := C14_tiles scores maxLength hm ds w hw1
    refine ⟨toks :: tss, by rw [List.mapM_cons, g1, h1]; rfl, ?_, ?_⟩
    · intro v hv
      rw [List.flatMap_cons] at hv
      rcases List.mem_append.1 hv with hv | hv
      · obtain ⟨t, ht, rfl⟩ := List.mem_map.1 hv
        obtain ⟨q1, q2, q3⟩ := tiles_mem w toks _ _ g2 t ht
        refine ⟨?_, fun c hc => hw2 c ?_⟩
        · intro h0
          have := congrArg List.length h0
          rw [q3, List.length_drop, List.length_take] at this
          simp only [List.length_nil] at this
          omega
        · rw [q3] at hc
          exact List.mem_of_mem_take (List.mem_of_mem_drop hc)
      · exact h2 v hv
    · intro v hv
      rw [List.flatMap_cons] at hv
      rcases List.mem_append.1 hv with hv | hv
      · obtain ⟨t, ht, rfl⟩ := List.mem_map.1 hv
        exact token_again scores maxLength hm ds w hw1 (hl w (by simp)) toks g1 t ht
      · exact h3 v hv

/-- C112 (a): tokenizing the output of MaxScoreTokenizer again changes nothing, if no eojeol is longer than 203 characters. -/
theorem C112_max_score (scores : Dict Str Rat) (maxLength : Nat) (hm : 2 ≤ maxLength) (ds : Rat) (sentence : Str) (hcut : ∀ w ∈ splitWs sentence, w.length ≤ 203) :
    ∃ ts, MaxScore.tokenize scores maxLength ds sentence = .ok ts ∧ MaxScore.tokenize scores maxLength ds (join [' '] ts) = .ok ts := by
  obtain ⟨tss, h1, h2, h3⟩ := max_words scores maxLength hm ds (splitWs sentence) (splitWs_words sentence) hcut
  refine ⟨_, by rw [MaxScore.tokenize, MaxScore.tokenizeSpans, h1]; rfl, ?_⟩
  have key : ∀ ts : List Str, (∀ t ∈ ts, ∃ s, MaxScore.recursiveTokenize scores maxLength ds t = .ok [s] ∧ s.word = t) →
      ∃ uss, ts.mapM (MaxScore.recursiveTokenize scores maxLength ds) = .ok uss ∧ uss.flatMap (fun t => t.map (·.word)) = ts := by
    intro ts
    induction ts with
    | nil => exact fun _ => ⟨[], rfl, rfl⟩
    | cons t ts ih =>
      intro h
      obtain ⟨uss, a1, a2⟩ := ih (fun u hu => h u (by simp [hu]))
      obtain ⟨s, b1, b2⟩ := h t (by simp)
      refine ⟨[s] :: uss, by rw [List.mapM_cons, b1, a1]; rfl, ?_⟩
      rw [List.flatMap_cons, a2, List.map_cons, b2]; rfl
  obtain ⟨uss, k1, k2⟩ := key _ h3
  rw [MaxScore.tokenize, MaxScore.tokenizeSpans, splitWs_join _ h2, k1]
  show Except.ok _ = _
  rw [k2]

example : MaxScore.tokenize [("데이터".toList, 1), ("분석".toList, 9/10), ("터분".toList, 1/2)] 10 0 "빅데이터분석을 데이터".toList =
      .ok ["빅".toList, "데이터".toList, "분석".toList, "을".toList, "데이터".toList] ∧
    MaxScore.tokenize [("데이터".toList, 1), ("분석".toList, 9/10), ("터분".toList, 1/2)] 10 0 "빅 데이터 분석 을 데이터".toList =
      .ok ["빅".toList, "데이터".toList, "분석".toList, "을".toList, "데이터".toList] := by
  refine ⟨by decide +kernel, by decide +kernel⟩

/-- C112 (a): the limit of 203 characters is needed. An eojeol of 205 equal characters, none of them in the table, ends with one token of three
    characters (`max_length=2`), and tokenizing again cuts it. -/
theorem C112_long_violated :
    MaxScore.tokenize [] 2 0 (List.replicate 205 '가') = .ok (List.replicate 101 "가가".toList ++ ["가가가".toList]) ∧
    MaxScore.tokenize [] 2 0 (join [' '] (List.replicate 101 "가가".toList ++ ["가가가".toList])) = .ok (List.replicate 102 "가가".toList ++ ["가".toList]) := by
  refine ⟨by decide +kernel, by decide +kernel⟩

/-! ### LTokenizer -/

private theorem best_again {scores : Dict Str Rat} {ds tol : Rat} {eojeol l r : Str} (h : BestCut scores ds tol eojeol l r) : BestCut scores ds tol l l [] := by
  have hlen : l.length ≤ eojeol.length := by rw [← h.whole, List.length_append]; omega
  refine ⟨by simp, fun _ => rfl, fun h' => by omega, ?_, ?_⟩
  · rintro h' a b rfl ha
    exact h.good (by omega) a (b ++ r) (by rw [← h.whole, List.append_assoc]) ha
  · rintro h' a b rfl ha
    rw [List.length_append] at ha
    omega

private theorem best_word {scores : Dict Str Rat} {ds tol : Rat} {eojeol l r : Str} (h : BestCut scores ds tol eojeol l r) (h0 : eojeol ≠ [])
    (hs : ∀ c ∈ eojeol, isSpace c = false) : l ≠ [] ∧ ∀ c ∈ l, isSpace c = false := by
  refine ⟨?_, fun c hc => hs c (by rw [← h.whole]; simp [hc])⟩
  rintro rfl
  by_cases hl : eojeol.length ≤ 2
  · exact h0 (by rw [← h.whole, h.short hl]; rfl)
  · have := h.two (by omega)
    simp at this

/-- C112 (b): the left parts that LTokenizer returns with `remove_r=True` are kept whole when they are tokenized again: the result is the same list, and
    as pairs every right part is empty. -/
theorem C112_left_parts (scores : Dict Str Rat) (ds tol : Rat) (sentence : Str) :
    ∃ ls, LTok.tokenizeL scores ds tol sentence = .ok ls ∧ LTok.tokenizeL scores ds tol (join [' '] ls) = .ok ls ∧
      LTok.tokenizePairs scores ds tol (join [' '] ls) = .ok (ls.map (fun l => (l, []))) := by
  obtain ⟨ls, h1, h2⟩ := C13_remove_r scores ds tol sentence
  have hw : Words ls := by
    have hws := splitWs_words sentence
    generalize splitWs sentence = ws at h2 hws
    clear h1
    induction h2 with
    | nil => simp [Words]
    | cons h _ ih =>
      intro v hv
      obtain ⟨r, hr⟩ := h
      rcases List.mem_cons.1 hv with rfl | hv
      · obtain ⟨a, b⟩ := hws _ (List.mem_cons_self ..)
        exact best_word hr a b
      · exact ih (fun x hx => hws x (by simp [hx])) v hv
  have hall : ∀ l ∈ ls, BestCut scores ds tol l l [] := by
    generalize splitWs sentence = ws at h2
    clear h1 hw
    induction h2 with
    | nil => simp
    | cons h _ ih =>
      intro v hv
      obtain ⟨r, hr⟩ := h
      rcases List.mem_cons.1 hv with rfl | hv
      · exact best_again hr
      · exact ih v hv
  have hp : LTok.tokenizePairs scores ds tol (join [' '] ls) = .ok (ls.map (fun l => (l, []))) := by
    obtain ⟨ps, g1, g2⟩ := C13_pairs_lossless scores ds tol (join [' '] ls)
    rw [splitWs_join _ hw] at g2
    rw [g1]
    congr 1
    clear g1 h1 h2 hw
    induction g2 with
    | nil => rfl
    | cons h _ ih =>
      rename_i a b l1 l2 _
      obtain ⟨e1, e2⟩ := C13_unique scores ds tol _ _ _ _ _ h (hall a (by simp))
      rw [List.map_cons, ← ih (fun x hx => hall x (by simp [hx]))]
      congr 1
      exact Prod.ext e1 e2
  refine ⟨ls, h1, ?_, hp⟩
  rw [LTok.tokenizeL, hp]
  show Except.ok _ = _
  congr 1
  rw [List.map_map]
  exact List.map_id _

/-- C112 (b): the flattened tokens of LTokenizer may be cut further: a right part of three or more characters is read as an eojeol the second time. -/
theorem C112_right_parts_violated :
    LTok.tokenize [("파스타".toList, 1), ("에서".toList, 1/2)] 0 0 "파스타에서는".toList = .ok ["파스타".toList, "에서는".toList] ∧
    LTok.tokenize [("파스타".toList, 1), ("에서".toList, 1/2)] 0 0 (join [' '] ["파스타".toList, "에서는".toList]) = .ok ["파스타".toList, "에서".toList, "는".toList] := by
  refine ⟨by decide +kernel, by decide +kernel⟩

/-! ### the noun tokenizers -/

private theorem chain_unique {isNoun : Str → Bool} {w : Str} {a b : List Str} (h : NounChain isNoun w a) (h' : NounChain isNoun w b) : a = b := by
  induction h generalizing b with
  | stop hs =>
    cases h' with
    | stop _ => rfl
    | take k _ => exact absurd (hs _ k.noun k.here) k.nonempty
  | take h1 h2 ih =>
    rename_i n rest ns
    generalize hv : n ++ rest = v at h' h1
    cases h' with
    | stop hs => exact absurd (hs _ h1.noun h1.here) h1.nonempty
    | take k1 k2 =>
      rename_i m rest' ms
      have hl : n.length = m.length := Nat.le_antisymm (k1.longest n h1.noun h1.here) (h1.longest m k1.noun k1.here)
      obtain ⟨e1, e2⟩ := List.append_inj hv hl
      subst e1; subst e2
      rw [ih k2]

private theorem chain_flat {isNoun : Str → Bool} {w : Str} {ns : List Str} (h : NounChain isNoun w ns) : ns.flatten <+: w := by
  induction h with
  | stop _ => simp
  | take _ _ ih => rw [List.flatten_cons]; exact (List.prefix_append_right_inj _).2 ih

private theorem chain_empty (isNoun : Str → Bool) : NounChain isNoun [] [] := .stop (fun _ _ h => List.prefix_nil.1 h)

private theorem chain_whole {isNoun : Str → Bool} {w : Str} {ns : List Str} (h : NounChain isNoun w ns) : NounChain isNoun ns.flatten ns := by
  induction h with
  | stop _ => exact chain_empty isNoun
  | take h1 h2 ih =>
    rename_i n rest ns
    rw [List.flatten_cons]
    refine .take ⟨h1.noun, h1.nonempty, List.prefix_append _ _, fun m hm hp => h1.longest m hm (hp.trans ?_)⟩ ih
    exact (List.prefix_append_right_inj _).2 (chain_flat h2)

private theorem chain_parts {isNoun : Str → Bool} {w : Str} {ns : List Str} (h : NounChain isNoun w ns) : ∀ n ∈ ns, NounChain isNoun n [n] := by
  induction h with
  | stop _ => simp
  | take h1 h2 ih =>
    rename_i n rest ns
    intro m hm
    rcases List.mem_cons.1 hm with rfl | hm
    · have := NounChain.take (isNoun := isNoun) (n := m) (rest := []) (ns := []) ⟨h1.noun, h1.nonempty, List.prefix_append _ _, fun k hk hp => h1.longest k hk (hp.trans ?_)⟩
        (chain_empty isNoun)
      · rwa [List.append_nil] at this
      · rw [List.append_nil]; exact List.prefix_append _ _
    · exact ih m hm

private theorem chains_fun {isNoun : Str → Bool} (f : Str → List Str) : ∀ {ws : List Str} {chains : List (List Str)}, List.Forall₂ (NounChain isNoun) ws chains →
    (∀ w ∈ ws, NounChain isNoun w (f w)) → chains = ws.map f := by
  intro ws chains h
  induction h with
  | nil => intro _; rfl
  | cons h _ ih =>
    intro hf
    rw [List.map_cons, ← ih (fun w hw => hf w (by simp [hw])), chain_unique h (hf _ (by simp))]

private theorem chains_unique {isNoun : Str → Bool} {ws : List Str} {a b : List (List Str)} (h : List.Forall₂ (NounChain isNoun) ws a)
    (h' : List.Forall₂ (NounChain isNoun) ws b) : a = b := by
  induction h generalizing b with
  | nil => cases h'; rfl
  | cons a _ ih =>
    cases h' with
    | cons b g => rw [chain_unique a b, ih g]

private theorem chains_mem {isNoun : Str → Bool} {ws : List Str} {chains : List (List Str)} (h : List.Forall₂ (NounChain isNoun) ws chains) :
    ∀ ch ∈ chains, ∃ w ∈ ws, NounChain isNoun w ch := by
  induction h with
  | nil => simp
  | cons h _ ih =>
    intro ch hc
    rcases List.mem_cons.1 hc with rfl | hc
    · exact ⟨_, by simp, h⟩
    · obtain ⟨w, hw, h'⟩ := ih ch hc
      exact ⟨w, by simp [hw], h'⟩

/-- C112 (c): tokenizing the output of NounLMatchTokenizer again changes nothing, without compounds and with them; and the nouns of the compounds are the
    nouns that are returned without compounds. -/
theorem C112_noun_chains (isNoun : Str → Bool) (sentence : Str) (compose : Bool) :
    NounTok.tokenizeL isNoun (join [' '] (NounTok.tokenizeL isNoun sentence compose)) compose = NounTok.tokenizeL isNoun sentence compose ∧
    NounTok.tokenizeL isNoun (join [' '] (NounTok.tokenizeL isNoun sentence true)) false = NounTok.tokenizeL isNoun sentence false := by
  obtain ⟨chains, h1, h2, h3⟩ := C18_left_chains isNoun sentence
  have hmem := chains_mem h1
  have hws := splitWs_words sentence
  have hflat : Words chains.flatten := by
    intro n hn
    obtain ⟨ch, hch, hn⟩ := List.mem_flatten.1 hn
    obtain ⟨w, hw, hc⟩ := hmem ch hch
    refine ⟨?_, fun c hc' => (hws w hw).2 c ((chain_flat hc).subset (List.mem_flatten.2 ⟨n, hn, hc'⟩))⟩
    have : ∀ {w : Str} {ns : List Str}, NounChain isNoun w ns → ∀ n ∈ ns, n ≠ [] := by
      intro w ns h
      induction h with
      | stop _ => simp
      | take k _ ih =>
        intro n hn
        rcases List.mem_cons.1 hn with rfl | hn
        · exact k.nonempty
        · exact ih n hn
    exact this hc n hn
  have hcomp : Words ((chains.map List.flatten).filter (fun t => t ≠ [])) := by
    intro t ht
    obtain ⟨ht, h0⟩ := List.mem_filter.1 ht
    obtain ⟨ch, hch, rfl⟩ := List.mem_map.1 ht
    obtain ⟨w, hw, hc⟩ := hmem ch hch
    exact ⟨by simpa using h0, fun c hc' => (hws w hw).2 c ((chain_flat hc).subset hc')⟩
  -- the chains of the compounds are the non-empty chains
  have hagain : ∃ chains', List.Forall₂ (NounChain isNoun) ((chains.map List.flatten).filter (fun t => t ≠ [])) chains' ∧ chains'.flatten = chains.flatten ∧
      (chains'.map List.flatten) = (chains.map List.flatten).filter (fun t => t ≠ []) := by
    have hwhole : ∀ ch ∈ chains, NounChain isNoun ch.flatten ch := fun ch hch => by
      obtain ⟨w, _, hc⟩ := hmem ch hch
      exact chain_whole hc
    clear h1 h2 h3 hmem hflat hcomp
    induction chains with
    | nil => exact ⟨[], .nil, rfl, rfl⟩
    | cons ch chains ih =>
      obtain ⟨cs, i1, i2, i3⟩ := ih (fun x hx => hwhole x (by simp [hx]))
      rw [List.map_cons]
      by_cases h0 : ch.flatten = []
      · rw [List.filter_cons_of_neg (by simpa using h0)]
        have hch : ch = [] := by
          have := hwhole ch (by simp)
          rw [h0] at this
          exact chain_unique this (chain_empty isNoun)
        refine ⟨cs, i1, ?_, i3⟩
        rw [i2, hch]; rfl
      · rw [List.filter_cons_of_pos (by simpa using h0)]
        exact ⟨ch :: cs, .cons (hwhole ch (by simp)) i1, by rw [List.flatten_cons, List.flatten_cons, i2], by rw [List.map_cons, i3]⟩
  obtain ⟨chains', c1, c2, c3⟩ := hagain
  constructor
  · cases compose with
    | false =>
      obtain ⟨cs, g1, g2, _⟩ := C18_left_chains isNoun (join [' '] (NounTok.tokenizeL isNoun sentence false))
      rw [g2, h2]
      rw [h2, splitWs_join _ hflat] at g1
      have := chains_fun (fun n => [n]) g1 (fun n hn => by
        obtain ⟨ch, hch, hn⟩ := List.mem_flatten.1 hn
        obtain ⟨w, _, hc⟩ := hmem ch hch
        exact chain_parts hc n hn)
      rw [this]
      generalize chains.flatten = l
      induction l with
      | nil => rfl
      | cons a l ih => rw [List.map_cons, List.flatten_cons, ih]; rfl
    | true =>
      obtain ⟨cs, g1, _, g3⟩ := C18_left_chains isNoun (join [' '] (NounTok.tokenizeL isNoun sentence true))
      rw [g3, h3]
      rw [h3, splitWs_join _ hcomp] at g1
      have : cs = chains' := chains_unique g1 c1
      rw [this, c3, List.filter_filter]
      simp
  · obtain ⟨cs, g1, g2, _⟩ := C18_left_chains isNoun (join [' '] (NounTok.tokenizeL isNoun sentence true))
    rw [g2, h2, ← c2]
    rw [h3, splitWs_join _ hcomp] at g1
    have : cs = chains' := chains_unique g1 c1
    rw [this]

example : NounTok.tokenizeL (fun w => ["아이오아이".toList, "아이".toList, "노래".toList].contains w) "아이오아이노래는 이노래 아이".toList true =
      ["아이오아이노래".toList, "아이".toList] ∧
    NounTok.tokenizeL (fun w => ["아이오아이".toList, "아이".toList, "노래".toList].contains w) "아이오아이노래 아이".toList true =
      ["아이오아이노래".toList, "아이".toList] := by decide +kernel

/-- C112 (d): for NounMatchTokenizer it is not so: the nouns of two characters that it finds inside longer eojeols are lost when its output is tokenized
    again. -/
theorem C112_noun_match_violated :
    NounTok.matchTokenize [("아이오아이".toList, 1), ("노래".toList, 1)] "아이오아이노래는".toList false = .ok ["아이오아이".toList, "노래".toList] ∧
    NounTok.matchTokenize [("아이오아이".toList, 1), ("노래".toList, 1)] (join [' '] ["아이오아이".toList, "노래".toList]) false = .ok ["아이오아이".toList] := by
  refine ⟨by decide +kernel, by decide +kernel⟩

end Props
