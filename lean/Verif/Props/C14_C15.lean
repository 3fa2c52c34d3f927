import Verif.Proofs.MaxScore
import Verif.Proofs.Text
import Mathlib.Data.List.Forall2
/-! C14, C15: MaxScoreTokenizer. -/
namespace Props
open Py MaxScore Spec

/-- C14 (a): every non-empty eojeol is cut into contiguous non-empty tokens, each the slice its offsets name, for
    every score table and eojeol length (also beyond the 100-iteration cut-off). -/
theorem C14_tiles (scores : Dict Str Rat) (maxLength : Nat) (hm : 2 ≤ maxLength) (ds : Rat) (token : Str) (hne : token ≠ []) :
    ∃ toks, recursiveTokenize scores maxLength ds token = .ok toks ∧
      Tiles token 0 token.length (toks.map (fun t => (t.word, t.b, t.e))) := by
  by_cases h : token.length ≤ 2
  · refine ⟨_, by simp [recursiveTokenize, h]; rfl, ?_⟩
    exact .cons (List.length_pos_iff.2 hne) (Nat.le_refl _) (by simp) (.nil _)
  · obtain ⟨toks, h1, h2, _⟩ := recursive_spec scores maxLength hm ds token (by omega)
    exact ⟨toks, h1, h2⟩

theorem tiles_flatten {w : Str} {i j : Nat} {l : List (Str × Nat × Nat)} (h : Tiles w i j l) (hj : j ≤ w.length) :
    i ≤ j ∧ (l.map (·.1)).flatten = (w.take j).drop i ∧ ∀ t ∈ l, t.1 ≠ [] := by
  induction h with
  | nil i => simp
  | @cons p b e j l h1 h2 h3 _ ih =>
    obtain ⟨ih1, ih2, ih3⟩ := ih hj
    refine ⟨by omega, ?_, ?_⟩
    · simp only [List.map_cons, List.flatten_cons, ih2, h3]
      have : (w.take j).drop b = ((w.take j).drop b).take (e - b) ++ ((w.take j).drop b).drop (e - b) := (List.take_append_drop _ _).symm
      rw [this, List.drop_drop, show b + (e - b) = e by omega]
      congr 1
      rw [List.take_drop, show b + (e - b) = e by omega, List.take_take, min_eq_left ih1]
    · intro t ht
      rcases List.mem_cons.1 ht with rfl | ht
      · rw [h3]; intro h0; simp only at h0
        have : ((w.take e).drop b).length = 0 := by rw [h0]; rfl
        simp at this; omega
      · exact ih3 t ht

/-- C14 (b): flattened output: no empty token, and concatenation is the sentence without its whitespace. -/
theorem C14_lossless (scores : Dict Str Rat) (maxLength : Nat) (hm : 2 ≤ maxLength) (ds : Rat) (sentence : Str) :
    ∃ ts, tokenize scores maxLength ds sentence = .ok ts ∧ (∀ t ∈ ts, t ≠ []) ∧
      ts.flatten = sentence.filter (fun c => c.toNat ∉ whitespace) := by
  have key : ∀ ws : List Str, (∀ w ∈ ws, w ≠ []) → ∃ tss, ws.mapM (recursiveTokenize scores maxLength ds) = .ok tss ∧
      (∀ t ∈ tss.flatMap (fun t => t.map (·.word)), t ≠ []) ∧ (tss.flatMap (fun t => t.map (·.word))).flatten = ws.flatten := by
    intro ws
    induction ws with
    | nil => intro _; exact ⟨[], rfl, by simp, rfl⟩
    | cons w ws ih =>
      intro h
      obtain ⟨tss, h1, h2, h3⟩ := ih (fun v hv => h v (List.mem_cons_of_mem _ hv))
      obtain ⟨toks, h4, h5⟩ := C14_tiles scores maxLength hm ds w (h w (by simp))
      obtain ⟨_, h6, h7⟩ := tiles_flatten h5 (Nat.le_refl _)
      have h8 : (toks.map (fun t => (t.word, t.b, t.e))).map (·.1) = toks.map (·.word) := by simp
      rw [h8] at h6
      refine ⟨toks :: tss, by simp [List.mapM_cons, h4, h1, bind, Except.bind, pure, Except.pure], ?_, ?_⟩
      · intro t ht
        rw [List.flatMap_cons, List.mem_append] at ht
        rcases ht with ht | ht
        · obtain ⟨x, hx, rfl⟩ := List.mem_map.1 ht
          exact h7 (x.word, x.b, x.e) (List.mem_map.2 ⟨x, hx, rfl⟩)
        · exact h2 t ht
      · rw [List.flatMap_cons, List.flatten_append, h3, h6]; simp
  obtain ⟨tss, h1, h2, h3⟩ := key (splitWs sentence) (fun w hw => splitWs_nonempty hw)
  refine ⟨_, by rw [tokenize, tokenizeSpans, h1]; rfl, h2, ?_⟩
  rw [h3, splitWs_flatten]
  apply List.filter_congr
  intro c _
  have := isSpace_iff c
  cases hs : isSpace c <;> simp_all

/-- C14 (c): the hypothesis `2 ≤ max_length` is needed: below it every eojeol of three or more characters raises
    `IndexError`. -/
theorem C14_short_max_length (scores : Dict Str Rat) (maxLength : Nat) (hm : maxLength < 2) (ds : Rat) (token : Str)
    (hl : 2 < token.length) : recursiveTokenize scores maxLength ds token = .error .indexError := by
  have : candidates scores ds token (min maxLength token.length) token.length = [] := by
    apply List.eq_nil_iff_forall_not_mem.2
    intro t ht
    have := (mem_candidates scores ds token _ t).1 ht
    omega
  have h0 : find (initCands scores ds token (min maxLength token.length) token.length) = [] := by
    rw [initCands, this]; rfl
  have hn : ¬ token.length ≤ 2 := by omega
  simp [recursiveTokenize, hn, h0]

example : recursiveTokenize [("데이터".toList, 1), ("분석".toList, 9/10)] 10 0 "빅데이터분석을".toList =
    .ok [⟨"빅".toList, 0, 1, 0, 1⟩, ⟨"데이터".toList, 1, 4, 1, 3⟩, ⟨"분석".toList, 4, 6, 9/10, 2⟩, ⟨"을".toList, 6, 7, 0, 1⟩] := by
  decide +kernel

/-! ### C15 -/

/-- a substring the tokenizer may choose: offsets `b < e` inside the eojeol, length 2 to `max_length` -/
def Eligible (maxLength : Nat) (token : Str) (b e : Nat) : Prop := b + 2 ≤ e ∧ e ≤ b + maxLength ∧ e ≤ token.length

/-- score of the substring `token[b:e]` in the table -/
def spanScore (scores : Dict Str Rat) (ds : Rat) (token : Str) (b e : Nat) : Rat :=
  (Dict.get? scores ((token.take e).drop b)).getD ds

/-- substring `(b, e)` ranks at least as high as `(b', e')`: higher score, then longer, then further left -/
def RanksBefore (scores : Dict Str Rat) (ds : Rat) (token : Str) (b e b' e' : Nat) : Prop :=
  spanScore scores ds token b' e' < spanScore scores ds token b e ∨
  (spanScore scores ds token b' e' = spanScore scores ds token b e ∧ (e' - b' < e - b ∨ (e' - b' = e - b ∧ b ≤ b')))

theorem eligible_iff (scores : Dict Str Rat) (ds : Rat) (maxLength : Nat) (token : Str) (t : Tok) :
    t ∈ initCands scores ds token (min maxLength token.length) token.length ↔
      Eligible maxLength token t.b t.e ∧ t.word = slice token t.b t.e ∧ t.score = spanScore scores ds token t.b t.e ∧
      t.len = t.e - t.b := by
  rw [initCands, mem_sorted, mem_candidates]
  simp only [Eligible, spanScore]
  constructor
  · rintro ⟨h1, h2, h3, h4, h5, h6⟩
    refine ⟨⟨h1, by omega, h3⟩, h4, ?_, h6⟩
    rw [h5, h4]; rfl
  · rintro ⟨⟨h1, h2, h3⟩, h4, h5, h6⟩
    refine ⟨h1, by omega, h3, h4, ?_, h6⟩
    rw [h5, h4]; rfl

theorem rank_iff (scores : Dict Str Rat) (ds : Rat) (token : Str) (x y : Tok)
    (hx : x.score = spanScore scores ds token x.b x.e ∧ x.len = x.e - x.b)
    (hy : y.score = spanScore scores ds token y.b y.e ∧ y.len = y.e - y.b) :
    rankLe x y = true ↔ RanksBefore scores ds token x.b x.e y.b y.e := by
  simp only [rankLe, decide_eq_true_eq, RanksBefore, hx.1, hx.2, hy.1, hy.2]

/-- C15 (a): for every eojeol (any length) the best-ranked eligible substring is an output token, with its table
    score. -/
theorem C15_best_is_output (scores : Dict Str Rat) (maxLength : Nat) (hm : 2 ≤ maxLength) (ds : Rat) (token : Str)
    (hl : 2 < token.length) (b e : Nat) (hel : Eligible maxLength token b e)
    (hbest : ∀ b' e', Eligible maxLength token b' e' → RanksBefore scores ds token b e b' e') :
    ∃ toks, recursiveTokenize scores maxLength ds token = .ok toks ∧
      ∃ t ∈ toks, t.b = b ∧ t.e = e ∧ t.word = (token.take e).drop b ∧ t.score = spanScore scores ds token b e := by
  obtain ⟨toks, h1, _, h3, _⟩ := recursive_spec scores maxLength hm ds token hl
  refine ⟨toks, h1, ?_⟩
  let c : Tok := ⟨slice token b e, b, e, spanScore scores ds token b e, e - b⟩
  have hc : c ∈ initCands scores ds token (min maxLength token.length) token.length :=
    (eligible_iff scores ds maxLength token c).2 ⟨hel, rfl, rfl, rfl⟩
  refine ⟨c, h3 c (mem_sorted.2 ?_), rfl, rfl, rfl, rfl⟩
  generalize hI : initCands scores ds token (min maxLength token.length) token.length = I at *
  cases I with
  | nil => cases hc
  | cons d I =>
    have hd : d ∈ initCands scores ds token (min maxLength token.length) token.length := by rw [hI]; simp
    obtain ⟨d1, d2, d3, d4⟩ := (eligible_iff scores ds maxLength token d).1 hd
    have hhead : (sorted rankLe (candidates scores ds token (min maxLength token.length) token.length)).head? = some d := by
      change (initCands scores ds token (min maxLength token.length) token.length).head? = some d
      rw [hI]; rfl
    have hdc := (head_sorted rank_totalPre hhead).2 c (by
      have : c ∈ initCands scores ds token (min maxLength token.length) token.length := by rw [hI]; exact hc
      exact mem_sorted.1 this)
    have r1 := (rank_iff scores ds token d c ⟨d3, d4⟩ ⟨rfl, rfl⟩).1 hdc
    have r2 := hbest d.b d.e d1
    have hEq : d.b = b ∧ d.e = e := by
      have e1 : c.b = b := rfl
      have e2 : c.e = e := rfl
      rw [e1, e2] at r1
      obtain ⟨q1, q2, q3⟩ := d1
      obtain ⟨q4, q5, q6⟩ := hel
      rcases r1 with r1 | ⟨r1, r1'⟩ <;> rcases r2 with r2 | ⟨r2, r2'⟩
      · exact absurd (r1.trans r2) (lt_irrefl _)
      · rw [r2] at r1; exact absurd r1 (lt_irrefl _)
      · rw [r1] at r2; exact absurd r2 (lt_irrefl _)
      · omega
    have : d = c := by
      obtain ⟨w, b', e', s, n⟩ := d
      simp only at hEq d2 d3 d4
      obtain ⟨rfl, rfl⟩ := hEq
      rw [d2, d3, d4]
    rw [← this]
    simp [findGo]

private theorem chain_bound (n : Nat) (l : List Tok) (h : ∀ c ∈ l, c.b + 2 ≤ c.e ∧ c.e ≤ n)
    (hc : l.Pairwise (fun c d => c.e ≤ d.b)) (lo : Nat) (hlo : ∀ c ∈ l, lo ≤ c.b) (hn : lo ≤ n) : lo + 2 * l.length ≤ n := by
  induction l generalizing lo with
  | nil => simpa
  | cons a l ih =>
    rw [List.pairwise_cons] at hc
    have ha := h a (by simp)
    have := ih (fun c hc => h c (List.mem_cons_of_mem _ hc)) hc.2 a.e hc.1 ha.2
    have := hlo a (by simp)
    simp only [List.length_cons]; omega

private theorem disjoint_bound (n : Nat) (l : List Tok) (h : ∀ c ∈ l, c.b + 2 ≤ c.e ∧ c.e ≤ n)
    (hd : l.Pairwise (fun c d => overlaps c d = false)) : 2 * l.length ≤ n := by
  have h1 := pairwise_sorted begin_totalPre l
  have h2 : (sorted beginLe l).Pairwise (fun c d => overlaps c d = false) := by
    refine (List.Perm.pairwise_iff ?_ (sorted_perm beginLe l)).2 hd
    intro x y hxy
    cases ho : overlaps y x
    · rfl
    · have := (overlaps_iff x y).2 ((overlaps_iff y x).1 ho).symm
      rw [hxy] at this; cases this
  have h3 : (sorted beginLe l).Pairwise (fun c d => c.e ≤ d.b) := by
    refine List.Pairwise.imp_of_mem ?_ (List.Pairwise.and h1 h2)
    intro c d hc hd ⟨h4, h5⟩
    have : ¬ (d.b < c.e ∧ c.b < d.e) := fun h => by rw [(overlaps_iff c d).2 h] at h5; cases h5
    simp only [beginLe, decide_eq_true_eq] at h4
    have := h c (mem_sorted.1 hc); have := h d (mem_sorted.1 hd)
    omega
  have := chain_bound n (sorted beginLe l) (fun c hc => h c (mem_sorted.1 hc)) h3 0 (by simp) (by simp)
  simpa using this

/-- C15 (b): for eojeols of up to 203 characters (below the cut-off) the output is the greedy choice: every eligible
    substring is an output token, or overlaps an eligible output token that ranks before it; and every output token
    is an eligible substring or a single character. -/
theorem C15_greedy (scores : Dict Str Rat) (maxLength : Nat) (hm : 2 ≤ maxLength) (ds : Rat) (token : Str)
    (hl : 2 < token.length) (hcut : token.length ≤ 203) :
    ∃ toks, recursiveTokenize scores maxLength ds token = .ok toks ∧
      (∀ b e, Eligible maxLength token b e →
        ∃ t ∈ toks, Eligible maxLength token t.b t.e ∧ t.score = spanScore scores ds token t.b t.e ∧
          ((t.b = b ∧ t.e = e) ∨ ((t.b < e ∧ b < t.e) ∧ RanksBefore scores ds token t.b t.e b e))) ∧
      (∀ t ∈ toks, Eligible maxLength token t.b t.e ∨ t.e = t.b + 1) := by
  obtain ⟨toks, h1, h2, h3, h4⟩ := recursive_spec scores maxLength hm ds token hl
  have hP : (initCands scores ds token (min maxLength token.length) token.length).Pairwise (fun x y => rankLe x y = true) :=
    pairwise_sorted rank_totalPre _
  have elig := eligible_iff scores ds maxLength token
  generalize hI : initCands scores ds token (min maxLength token.length) token.length = I at *
  have greedy : ∀ b e, Eligible maxLength token b e → ∃ t ∈ find I, Eligible maxLength token t.b t.e ∧
      t.score = spanScore scores ds token t.b t.e ∧
      ((t.b = b ∧ t.e = e) ∨ ((t.b < e ∧ b < t.e) ∧ RanksBefore scores ds token t.b t.e b e)) := by
    intro b e hel
    let c : Tok := ⟨slice token b e, b, e, spanScore scores ds token b e, e - b⟩
    have hc : c ∈ I := (elig c).2 ⟨hel, rfl, rfl, rfl⟩
    rcases findGo_greedy 101 I _ hP c hc with h | ⟨d, hd1, hd2, hd3⟩ | ⟨hlen, hno⟩
    · exact ⟨c, mem_sorted.2 h, hel, rfl, Or.inl ⟨rfl, rfl⟩⟩
    · obtain ⟨q1, q2, q3, q4⟩ := (elig d).1 (findGo_subset 101 I d hd1)
      refine ⟨d, mem_sorted.2 hd1, q1, q3, Or.inr ⟨?_, (rank_iff scores ds token d c ⟨q3, q4⟩ ⟨rfl, rfl⟩).1 hd3⟩⟩
      have := (overlaps_iff d c).1 hd2
      exact ⟨this.2, this.1⟩
    · exfalso
      have hb : ∀ t ∈ c :: findGo 101 I, t.b + 2 ≤ t.e ∧ t.e ≤ token.length := by
        intro t ht
        rcases List.mem_cons.1 ht with rfl | ht
        · exact ⟨hel.1, hel.2.2⟩
        · have := ((elig t).1 (findGo_subset 101 I t ht)).1
          exact ⟨this.1, this.2.2⟩
      have hd : (c :: findGo 101 I).Pairwise (fun c d => overlaps c d = false) := by
        refine List.pairwise_cons.2 ⟨?_, findGo_disjoint 101 I⟩
        intro d hd'
        cases ho : overlaps c d
        · rfl
        · have := (overlaps_iff d c).2 ((overlaps_iff c d).1 ho).symm
          rw [hno d hd'] at this; cases this
      have := disjoint_bound token.length _ hb hd
      simp only [List.length_cons, hlen] at this
      omega
  refine ⟨toks, h1, ?_, ?_⟩
  · intro b e hel
    obtain ⟨t, ht, h⟩ := greedy b e hel
    exact ⟨t, h3 t ht, h⟩
  · intro t ht
    rcases h4 t ht with hR | ⟨hdis, _⟩
    · left; exact ((elig t).1 (findGo_subset 101 I t (mem_sorted.1 hR))).1
    · right
      have hpos := (tiles_pairwise h2).1 t ht
      have hend : t.e ≤ token.length := by
        have key : ∀ (i j : Nat) (l : List Tok), Tiles token i j (l.map Tok.span) → ∀ x ∈ l, x.e ≤ token.length := by
          intro i j l
          induction l generalizing i with
          | nil => intro _ x hx; cases hx
          | cons c l ih =>
            intro h x hx
            rw [List.map_cons] at h
            cases h with
            | cons q1 q2 q3 q4 =>
              rcases List.mem_cons.1 hx with rfl | hx
              · exact q2
              · exact ih _ q4 x hx
        exact key 0 _ toks h2 t ht
      by_contra hlen
      obtain ⟨r, hr, hre, _, hcase⟩ := greedy t.b (t.b + 2) ⟨Nat.le_refl _, by omega, by omega⟩
      have := hdis r hr
      have := hre.1
      rcases hcase with ⟨q1, q2⟩ | ⟨⟨q1, q2⟩, _⟩ <;> omega

example : Eligible 10 "빅데이터분석을".toList 1 4 ∧ ("빅데이터분석을".toList).length ≤ 203 := by
  simp [Eligible]

/-! ### the result, exactly -/

/-- the greedy choice among the spans `E`, with at most `n` picks: the best span that is left is picked, the spans that overlap it are
    dropped, and so on until `n` spans are picked or none is left -/
inductive GreedyPick (better : Nat × Nat → Nat × Nat → Prop) : Nat → (Nat × Nat → Prop) → List (Nat × Nat) → Prop
  | full (E) : GreedyPick better 0 E []
  | empty (n) (E : Nat × Nat → Prop) : (∀ x, ¬ E x) → GreedyPick better n E []
  | pick (n) (E : Nat × Nat → Prop) (x : Nat × Nat) (rest) : E x → (∀ y, E y → better x y) →
      GreedyPick better n (fun y => E y ∧ (y.2 ≤ x.1 ∨ x.2 ≤ y.1)) rest → GreedyPick better (n + 1) E (x :: rest)

/-- a gap between the chosen spans (or a chosen span and an end of the word) -/
structure GapOf (length : Nat) (chosen : List (Nat × Nat)) (b e : Nat) : Prop where
  nonempty : b < e
  starts : b = 0 ∨ ∃ c ∈ chosen, c.2 = b
  ends : e = length ∨ ∃ c ∈ chosen, c.1 = e
  free : ∀ c ∈ chosen, c.2 ≤ b ∨ e ≤ c.1

private theorem findGo_pick (scores : Dict Str Rat) (ds : Rat) (token : Str) (n : Nat) (l : List Tok)
    (hl : ∀ t ∈ l, t.b < t.e ∧ t.score = spanScore scores ds token t.b t.e ∧ t.len = t.e - t.b) (hs : l.Pairwise (fun x y => rankLe x y = true)) (E : Nat × Nat → Prop)
    (hE : ∀ x, E x ↔ ∃ t ∈ l, (t.b, t.e) = x) :
    GreedyPick (fun x y => RanksBefore scores ds token x.1 x.2 y.1 y.2) n E ((findGo n l).map (fun t => (t.b, t.e))) := by
  induction n generalizing l E with
  | zero => exact .full E
  | succ n ih =>
    cases l with
    | nil =>
      refine .empty _ E (fun x hx => ?_)
      obtain ⟨t, ht, _⟩ := (hE x).1 hx
      cases ht
    | cons c l =>
      rw [List.pairwise_cons] at hs
      rw [findGo, List.map_cons]
      have hc := hl c (by simp)
      refine .pick n E (c.b, c.e) _ ((hE _).2 ⟨c, by simp, rfl⟩) ?_ ?_
      · intro y hy
        obtain ⟨t, ht, rfl⟩ := (hE y).1 hy
        have htl := hl t ht
        rcases List.mem_cons.1 ht with rfl | ht'
        · exact Or.inr ⟨rfl, Or.inr ⟨rfl, Nat.le_refl _⟩⟩
        · exact (rank_iff scores ds token c t hc.2 htl.2).1 (hs.1 t ht')
      · refine ih _ (fun t ht => hl t (List.mem_cons_of_mem _ (List.mem_filter.1 ht).1)) (hs.2.filter _) _ ?_
        intro x
        constructor
        · rintro ⟨hx, ho⟩
          obtain ⟨t, ht, rfl⟩ := (hE x).1 hx
          rcases List.mem_cons.1 ht with rfl | ht'
          · dsimp only at ho; omega
          · refine ⟨t, List.mem_filter.2 ⟨ht', ?_⟩, rfl⟩
            cases hov : overlaps c t
            · rfl
            · have := (overlaps_iff c t).1 hov
              dsimp only at ho; omega
        · rintro ⟨t, ht, rfl⟩
          obtain ⟨ht', hov⟩ := List.mem_filter.1 ht
          refine ⟨(hE _).2 ⟨t, List.mem_cons_of_mem _ ht', rfl⟩, ?_⟩
          cases ho : overlaps c t
          · have : ¬ (t.b < c.e ∧ c.b < t.e) := by
              intro h; rw [(overlaps_iff c t).2 h] at ho; cases ho
            dsimp only; omega
          · rw [ho] at hov; cases hov

/-- C15: the result for every word of more than two characters, of whatever length. Spans of 2 to `max_length` characters are picked
    greedily (highest score, then longest, then leftmost), at most 101 of them; the tokens are the picked spans with their scores in the
    table and the gaps that remain, in the order of the text. A gap at the start or at the end of the word carries its score in the table,
    a gap in between the default score. -/
theorem C15_exact (scores : Dict Str Rat) (maxLength : Nat) (hm : 2 ≤ maxLength) (ds : Rat) (token : Str) (hl : 2 < token.length) :
    ∃ toks chosen, recursiveTokenize scores maxLength ds token = .ok toks ∧
      GreedyPick (fun x y => RanksBefore scores ds token x.1 x.2 y.1 y.2) 101 (fun x => Eligible maxLength token x.1 x.2) chosen ∧
      Tiles token 0 token.length (toks.map (fun t => (t.word, t.b, t.e))) ∧
      ∀ t, t ∈ toks ↔ t.word = (token.take t.e).drop t.b ∧ t.len = t.e - t.b ∧
        (((t.b, t.e) ∈ chosen ∧ t.score = spanScore scores ds token t.b t.e) ∨
         (GapOf token.length chosen t.b t.e ∧
          t.score = if t.b = 0 ∨ t.e = token.length then spanScore scores ds token t.b t.e else ds)) := by
  obtain ⟨toks, h1, h2, h3, h4⟩ := recursive_spec scores maxLength hm ds token hl
  have hP : (initCands scores ds token (min maxLength token.length) token.length).Pairwise (fun x y => rankLe x y = true) :=
    pairwise_sorted rank_totalPre _
  have elig := eligible_iff scores ds maxLength token
  generalize hI : initCands scores ds token (min maxLength token.length) token.length = I at *
  have hmem : ∀ x, x ∈ (findGo 101 I).map (fun t => (t.b, t.e)) ↔ ∃ r ∈ find I, (r.b, r.e) = x := by
    intro x
    rw [List.mem_map]
    constructor
    · rintro ⟨r, hr, h⟩; exact ⟨r, mem_sorted.2 hr, h⟩
    · rintro ⟨r, hr, h⟩; exact ⟨r, mem_sorted.1 hr, h⟩
  have hfind : ∀ r ∈ find I, Eligible maxLength token r.b r.e ∧ r.word = slice token r.b r.e ∧ r.score = spanScore scores ds token r.b r.e ∧ r.len = r.e - r.b :=
    fun r hr => (elig r).1 (findGo_subset 101 I r (mem_sorted.1 hr))
  have hword : ∀ t ∈ toks, t.b < t.e ∧ t.e ≤ token.length ∧ t.word = slice token t.b t.e := by
    have key : ∀ (i j : Nat) (l : List Tok), Tiles token i j (l.map Tok.span) → ∀ x ∈ l, x.b < x.e ∧ x.e ≤ token.length ∧ x.word = slice token x.b x.e := by
      intro i j l
      induction l generalizing i with
      | nil => intro _ x hx; cases hx
      | cons c l ih =>
        intro h x hx
        rw [List.map_cons] at h
        cases h with
        | cons q1 q2 q3 q4 =>
          rcases List.mem_cons.1 hx with rfl | hx
          · exact ⟨q1, q2, q3⟩
          · exact ih _ q4 x hx
    exact key 0 _ toks h2
  have hgap : ∀ t ∈ toks, t ∉ find I → GapOf token.length ((findGo 101 I).map (fun t => (t.b, t.e))) t.b t.e ∧
      t.len = t.e - t.b ∧ t.score = if t.b = 0 ∨ t.e = token.length then spanScore scores ds token t.b t.e else ds := by
    intro t ht hno
    rcases h4 t ht with h | ⟨g1, g2, g3, g4, g5⟩
    · exact absurd h hno
    · refine ⟨⟨(hword t ht).1, ?_, ?_, ?_⟩, g2, g5⟩
      · rcases g3 with g3 | ⟨r, hr, g3⟩
        · exact Or.inl g3
        · exact Or.inr ⟨(r.b, r.e), (hmem _).2 ⟨r, hr, rfl⟩, g3⟩
      · rcases g4 with g4 | ⟨r, hr, g4⟩
        · exact Or.inl g4
        · exact Or.inr ⟨(r.b, r.e), (hmem _).2 ⟨r, hr, rfl⟩, g4⟩
      · intro c hc
        obtain ⟨r, hr, rfl⟩ := (hmem c).1 hc
        exact g1 r hr
  have hcover : ∀ i, i < token.length → ∃ t ∈ toks, t.b ≤ i ∧ i < t.e := by
    have key : ∀ (lo hi : Nat) (l : List Tok), Tiles token lo hi (l.map Tok.span) → ∀ i, lo ≤ i → i < hi → ∃ t ∈ l, t.b ≤ i ∧ i < t.e := by
      intro lo hi l
      induction l generalizing lo with
      | nil =>
        intro h i h1 h2
        cases h
        omega
      | cons c l ih =>
        intro h i h1 h2
        rw [List.map_cons] at h
        cases h with
        | cons q1 q2 q3 q4 =>
          by_cases hi : i < c.e
          · exact ⟨c, by simp, h1, hi⟩
          · obtain ⟨t, ht, h⟩ := ih _ q4 i (by omega) h2
            exact ⟨t, by simp [ht], h⟩
    exact fun i hi => key 0 _ toks h2 i (Nat.zero_le _) hi
  refine ⟨toks, (findGo 101 I).map (fun t => (t.b, t.e)), h1, ?_, h2, ?_⟩
  · refine findGo_pick scores ds token 101 I (fun t ht => ?_) hP _ (fun x => ?_)
    · obtain ⟨q1, q2, q3, q4⟩ := (elig t).1 ht
      exact ⟨by have := q1.1; omega, q3, q4⟩
    · constructor
      · intro hx
        exact ⟨⟨slice token x.1 x.2, x.1, x.2, spanScore scores ds token x.1 x.2, x.2 - x.1⟩, (elig _).2 ⟨hx, rfl, rfl, rfl⟩, rfl⟩
      · rintro ⟨t, ht, rfl⟩
        exact ((elig t).1 ht).1
  · intro t
    constructor
    · intro ht
      by_cases hR : t ∈ find I
      · obtain ⟨q1, q2, q3, q4⟩ := hfind t hR
        exact ⟨q2, q4, Or.inl ⟨(hmem _).2 ⟨t, hR, rfl⟩, q3⟩⟩
      · obtain ⟨g1, g2, g3⟩ := hgap t ht hR
        exact ⟨(hword t ht).2.2, g2, Or.inr ⟨g1, g3⟩⟩
    · rintro ⟨hw, hlen, ⟨hc, hsc⟩ | ⟨hg, hsc⟩⟩
      · obtain ⟨r, hr, he⟩ := (hmem _).1 hc
        obtain ⟨e1, e2⟩ := Prod.mk.inj he
        obtain ⟨q1, q2, q3, q4⟩ := hfind r hr
        have : t = r := by
          obtain ⟨tw, tb, te, ts, tl⟩ := t
          obtain ⟨rw', rb, re, rs, rl⟩ := r
          dsimp only at *
          subst e1 e2
          rw [hw, hlen, hsc, q2, q3, q4]
          rfl
        rw [this]; exact h3 r hr
      · have hbe := hg.nonempty
        have hend : t.e ≤ token.length := by
          rcases hg.ends with h | ⟨c, hc, h⟩
          · omega
          · obtain ⟨r, hr, rfl⟩ := (hmem c).1 hc
            have := (hfind r hr).1
            have := this.2.2
            have := this
            dsimp only at h
            have h5 := (hfind r hr).1.1
            omega
        obtain ⟨u, hu, hu1, hu2⟩ := hcover t.b (by omega)
        have huR : u ∉ find I := by
          intro h
          have := hg.free (u.b, u.e) ((hmem _).2 ⟨u, h, rfl⟩)
          dsimp only at this; omega
        obtain ⟨g1, g2, g3⟩ := hgap u hu huR
        have eb : t.b = u.b := by
          by_contra hne
          rcases hg.starts with h | ⟨c, hc, h⟩
          · omega
          · have := g1.free c hc
            obtain ⟨r, hr, rfl⟩ := (hmem c).1 hc
            have h5 := (hfind r hr).1.1
            dsimp only at this h
            omega
        have ee : t.e = u.e := by
          have hue := (hword u hu).2.1
          rcases Nat.lt_trichotomy t.e u.e with h | h | h
          · rcases hg.ends with h' | ⟨c, hc, h'⟩
            · omega
            · have := g1.free c hc
              obtain ⟨r, hr, rfl⟩ := (hmem c).1 hc
              have h5 := (hfind r hr).1.1
              dsimp only at this h'
              omega
          · exact h
          · rcases g1.ends with h' | ⟨c, hc, h'⟩
            · omega
            · have := hg.free c hc
              obtain ⟨r, hr, rfl⟩ := (hmem c).1 hc
              have h5 := (hfind r hr).1.1
              dsimp only at this h'
              omega
        have : t = u := by
          have hw2 := (hword u hu).2.2
          obtain ⟨tw, tb, te, ts, tl⟩ := t
          obtain ⟨uw, ub, ue, us, ul⟩ := u
          dsimp only at *
          subst eb ee
          rw [hw, hlen, hsc, hw2, g2, g3]
          rfl
        rw [this]; exact hu

/-- C15: the greedy choice is determined by the scores, so there is only one possible result. -/
theorem C15_choice_unique (scores : Dict Str Rat) (maxLength : Nat) (ds : Rat) (token : Str) (n : Nat) (l l' : List (Nat × Nat))
    (h : GreedyPick (fun x y => RanksBefore scores ds token x.1 x.2 y.1 y.2) n (fun x => Eligible maxLength token x.1 x.2) l)
    (h' : GreedyPick (fun x y => RanksBefore scores ds token x.1 x.2 y.1 y.2) n (fun x => Eligible maxLength token x.1 x.2) l') : l = l' := by
  have anti : ∀ x y : Nat × Nat, x.1 ≤ x.2 → y.1 ≤ y.2 → RanksBefore scores ds token x.1 x.2 y.1 y.2 → RanksBefore scores ds token y.1 y.2 x.1 x.2 → x = y := by
    rintro ⟨b, e⟩ ⟨b', e'⟩ h1 h2 h3 h4
    dsimp only at *
    rcases h3 with h3 | ⟨h3, h3'⟩ <;> rcases h4 with h4 | ⟨h4, h4'⟩
    · exact absurd (lt_trans h3 h4) (lt_irrefl _)
    · rw [h4] at h3; exact absurd h3 (lt_irrefl _)
    · rw [h3] at h4; exact absurd h4 (lt_irrefl _)
    · have : b = b' ∧ e = e' := by omega
      rw [this.1, this.2]
  have key : ∀ (n : Nat) (E : Nat × Nat → Prop) (l l' : List (Nat × Nat)), (∀ x, E x → x.1 ≤ x.2) →
      GreedyPick (fun x y => RanksBefore scores ds token x.1 x.2 y.1 y.2) n E l →
      GreedyPick (fun x y => RanksBefore scores ds token x.1 x.2 y.1 y.2) n E l' → l = l' := by
    intro n E l l' hE h
    induction h generalizing l' with
    | full E =>
      intro h'
      cases h' with
      | full => rfl
      | empty => rfl
    | empty n E h0 =>
      intro h'
      cases h' with
      | full => rfl
      | empty => rfl
      | pick n E x rest hx _ _ => exact absurd hx (h0 x)
    | pick n E x rest hx hb _ ih =>
      intro h'
      cases h' with
      | empty _ _ h0 => exact absurd hx (h0 x)
      | pick _ _ y rest' hy hb' hr =>
        have : x = y := anti x y (hE x hx) (hE y hy) (hb y hy) (hb' x hx)
        subst this
        rw [ih rest' (fun z hz => hE z hz.1) hr]
  exact key n _ l l' (fun x hx => by have := hx.1; omega) h h'

/-- a word of at most two characters is one token with the default score, whatever the table says (C15) -/
theorem C15_short (scores : Dict Str Rat) (maxLength : Nat) (ds : Rat) (token : Str) (hl : token.length ≤ 2) :
    recursiveTokenize scores maxLength ds token = .ok [⟨token, 0, token.length, ds, token.length⟩] := by
  simp [recursiveTokenize, hl]

example : (recursiveTokenize [("데이터".toList, 2), ("빅".toList, 5), ("을".toList, 7)] 10 0 "빅데이터를데이터을".toList) =
    .ok [⟨"빅".toList, 0, 1, 5, 1⟩, ⟨"데이터".toList, 1, 4, 2, 3⟩, ⟨"를".toList, 4, 5, 0, 1⟩, ⟨"데이터".toList, 5, 8, 2, 3⟩, ⟨"을".toList, 8, 9, 7, 1⟩] := by
  decide +kernel

end Props
