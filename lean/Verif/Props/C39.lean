import Verif.Props.C40
/-! C39: tagging with `LRTemplateMatcher`, `LREvaluator` and `UnknowLRPostprocessor`. -/
set_option linter.unusedSimpArgs false
set_option linter.unusedVariables false
namespace Props
open Py PT

/-- `w` is a candidate: an L of two or more characters with one of the allowed tags, alone or followed by an R matching a template -/
structure IsCandidate (g : LRMatcher) (token : Str) (w : LR) : Prop where
  order : w.b + 2 ≤ w.m ∧ w.m ≤ w.e ∧ w.e ≤ token.length
  left : w.l = slice token w.b w.m
  right : w.r = slice token w.m w.e
  tags : ∃ t, w.lTag = some t ∧ t ∈ g.ltags ∧ g.dictionary.wordIsTag w.l t = true ∧
    ((w.m = w.e ∧ w.rTag = none) ∨ (w.m < w.e ∧ ∃ rt ∈ Dict.getD g.templates t [], w.rTag = some rt ∧ g.dictionary.wordIsTag w.r rt = true))

/-- **C39** `LRTemplateMatcher.generate` returns exactly the candidates, for every dictionary reachable by its API and every enumeration
    order of tag sets. -/
theorem C39_generate (g : LRMatcher) (hd : DReach g.dictionary) (hord : ∀ l, (g.ord l).Perm l) (token : Str) (w : LR) :
    w ∈ g.generate token ↔ IsCandidate g token w := by
  unfold LRMatcher.generate
  rw [(sorted_perm _ _).mem_iff, List.mem_flatMap]
  have hL : ∀ c : Str × Str × Nat × Nat, c ∈ initializeL g token ↔
      c.2.2.1 + 2 ≤ c.2.2.2 ∧ c.2.2.2 ≤ token.length ∧ c.1 = slice token c.2.2.1 c.2.2.2 ∧ c.2.1 ∈ g.ltags ∧ g.dictionary.wordIsTag c.1 c.2.1 = true := by
    rintro ⟨l, t, b, e⟩
    unfold initializeL
    rw [(sorted_perm _ _).mem_iff, List.mem_flatMap]
    have hmem : ∀ x t, t ∈ posL g x ↔ t ∈ g.ltags ∧ g.dictionary.wordIsTag x t = true := by
      intro x t
      unfold posL
      rw [(hord _).mem_iff, List.mem_filter, (C38_get_pos _ hd x t).2, decide_eq_true_iff, and_comm]
    constructor
    · rintro ⟨b', hb', hm⟩
      obtain ⟨e', he', hm⟩ := List.mem_flatMap.1 hm
      obtain ⟨t', ht', heq⟩ := List.mem_map.1 hm
      rw [hmem] at ht'
      cases heq
      have := List.mem_range'.1 he'
      obtain ⟨i, hi, he⟩ := this
      have := List.mem_range.1 hb'
      dsimp only
      exact ⟨by omega, by omega, rfl, ht'.1, ht'.2⟩
    · rintro ⟨h1, h2, h3, h4, h5⟩
      dsimp only at h1 h2 h3 h4 h5
      subst h3
      have hlen := C38_max_length _ hd _ _ h5
      rw [length_slice] at hlen
      refine ⟨b, List.mem_range.2 (by omega), List.mem_flatMap.2 ⟨e, List.mem_range'.2 ⟨e - (b + 2), by omega, by omega⟩, ?_⟩⟩
      exact List.mem_map.2 ⟨t, (hmem _ _).2 ⟨h4, h5⟩, rfl⟩
  constructor
  · rintro ⟨⟨l, t, b, e⟩, hc, hw⟩
    obtain ⟨h1, h2, h3, h4, h5⟩ := (hL _).1 hc
    dsimp only at h1 h2 h3 h4 h5
    unfold expandOne at hw
    obtain ⟨e2, he2, hw⟩ := List.mem_flatMap.1 hw
    obtain ⟨i, hi, he⟩ := List.mem_range'.1 he2
    dsimp only at hi he hw
    split at hw
    · rename_i hnil
      rw [slice_eq_nil (by omega)] at hnil
      rw [List.mem_singleton] at hw
      subst hw
      have : e2 = e := by omega
      subst this
      exact ⟨⟨h1, Nat.le_refl _, h2⟩, h3, by rw [slice_self], t, rfl, h4, h5, Or.inl ⟨rfl, rfl⟩⟩
    · rename_i hnil
      rw [slice_eq_nil (by omega)] at hnil
      obtain ⟨rt, hrt, rfl⟩ := List.mem_map.1 hw
      obtain ⟨hrt1, hrt2⟩ := List.mem_filter.1 hrt
      exact ⟨⟨h1, by dsimp only; omega, by dsimp only; omega⟩, h3, rfl, t, rfl, h4, h5, Or.inr ⟨by dsimp only; omega, rt, hrt1, rfl, hrt2⟩⟩
  · rintro ⟨⟨h1, h2, h3⟩, hl, hr, t, ht, htl, htw, hcase⟩
    refine ⟨(w.l, t, w.b, w.m), (hL _).2 ⟨h1, by dsimp only; omega, hl, htl, htw⟩, ?_⟩
    unfold expandOne
    have hbound : w.e ≤ g.dictionary.maxLength + w.m := by
      rcases hcase with ⟨h, _⟩ | ⟨_, rt, _, _, hw⟩
      · omega
      · have := C38_max_length _ hd _ _ hw
        rw [hr, length_slice] at this
        omega
    refine List.mem_flatMap.2 ⟨w.e, List.mem_range'.2 ⟨w.e - w.m, by dsimp only; omega, by dsimp only; omega⟩, ?_⟩
    dsimp only
    rcases hcase with ⟨h, hrt⟩ | ⟨h, rt, hrt1, hrt2, hrt3⟩
    · rw [if_pos (by rw [slice_eq_nil h3]; omega), List.mem_singleton]
      rw [h, slice_self] at hr
      cases w; simp_all
    · rw [if_neg (by rw [slice_eq_nil h3]; omega)]
      refine List.mem_map.2 ⟨rt, List.mem_filter.2 ⟨hrt1, by rw [← hr]; exact hrt3⟩, ?_⟩
      cases w; simp_all

/-! ### selection -/

/-- two words that share no character -/
def Apart (x y : LR) : Prop := x.e ≤ y.b ∨ y.e ≤ x.b

private theorem not_overlaps (x y : LR) : overlaps x y = false ↔ Apart x y := by
  unfold overlaps Apart
  rw [Bool.and_eq_false_iff]
  simp only [decide_eq_false_iff_not]
  omega

private theorem overlaps_iff (x y : LR) : overlaps x y = true ↔ ¬ Apart x y := by
  rw [← not_overlaps]; cases overlaps x y <;> simp

private theorem removeGo_spec (fuel : Nat) (l : List (LR × Rat)) (best : List LR) (hf : l.length ≤ fuel)
    (hs : l.Pairwise (fun x y => y.2 ≤ x.2)) (hb : best.Pairwise Apart) (hbl : ∀ x ∈ best, ∀ c ∈ l, Apart x c.1) :
    (∀ x ∈ removeGo fuel l best, x ∈ best ∨ ∃ s, (x, s) ∈ l) ∧ (∀ x ∈ best, x ∈ removeGo fuel l best) ∧ (removeGo fuel l best).Pairwise Apart ∧
    (∀ c ∈ l, ∃ x s, (x, s) ∈ l ∧ x ∈ removeGo fuel l best ∧ c.2 ≤ s ∧ (x = c.1 ∨ ¬ Apart x c.1)) := by
  induction fuel generalizing l best with
  | zero =>
    cases l with
    | nil => exact ⟨fun x hx => Or.inl hx, fun x hx => hx, hb, by simp⟩
    | cons x l => simp at hf
  | succ fuel ih =>
    cases l with
    | nil => exact ⟨fun x hx => Or.inl hx, fun x hx => hx, hb, by simp⟩
    | cons x rest =>
      rw [removeGo]
      rw [List.pairwise_cons] at hs
      have hlen : (rest.filter (fun c => !overlaps x.1 c.1)).length ≤ fuel := by
        have := List.length_filter_le (fun c => !overlaps x.1 c.1) rest
        simp at hf; omega
      obtain ⟨i1, i2, i3, i4⟩ := ih (rest.filter (fun c => !overlaps x.1 c.1)) (best ++ [x.1]) hlen (hs.2.sublist List.filter_sublist)
        (List.pairwise_append.2 ⟨hb, by simp, by
          intro a ha b hb'
          rw [List.mem_singleton] at hb'; subst hb'
          exact hbl a ha x (by simp)⟩)
        (by
          intro a ha c hc
          obtain ⟨hc1, hc2⟩ := List.mem_filter.1 hc
          rcases List.mem_append.1 ha with ha | ha
          · exact hbl a ha c (by simp [hc1])
          · rw [List.mem_singleton] at ha; subst ha
            rw [← not_overlaps]; simpa using hc2)
      refine ⟨?_, ?_, i3, ?_⟩
      · intro a ha
        rcases i1 a ha with h | ⟨s, h⟩
        · rcases List.mem_append.1 h with h | h
          · exact Or.inl h
          · rw [List.mem_singleton] at h; subst h; exact Or.inr ⟨x.2, by simp⟩
        · exact Or.inr ⟨s, List.mem_cons_of_mem _ (List.mem_filter.1 h).1⟩
      · intro a ha; exact i2 a (by simp [ha])
      · intro c hc
        rcases List.mem_cons.1 hc with rfl | hc
        · exact ⟨c.1, c.2, by simp, i2 _ (by simp), le_refl _, Or.inl rfl⟩
        · by_cases ho : overlaps x.1 c.1 = true
          · exact ⟨x.1, x.2, by simp, i2 _ (by simp), hs.1 c hc, Or.inr ((overlaps_iff _ _).1 ho)⟩
          · obtain ⟨y, s, h1, h2, h3, h4⟩ := i4 c (List.mem_filter.2 ⟨hc, by simpa using ho⟩)
            exact ⟨y, s, List.mem_cons_of_mem _ (List.mem_filter.1 h1).1, h2, h3, h4⟩

private theorem totalPre_score {α : Type} : TotalPre (fun x y : α × Rat => decide (-x.2 ≤ -y.2)) :=
  ⟨fun a b c h1 h2 => by simp only [decide_eq_true_eq] at *; exact le_trans h1 h2, fun a b => by simp only [decide_eq_true_eq]; exact le_total _ _⟩

private theorem perm_selectBest (score : LR → Rat) (cands : List LR) :
    (selectBestLR score cands).Perm
      (removeGo cands.length (sorted (fun x y => decide (-x.2 ≤ -y.2)) (cands.map (fun c => (c, score c)))) []) := by
  unfold selectBestLR removeOverlapped
  rw [List.length_map]
  exact (sorted_perm _ _).trans (sorted_perm _ _)

/-- **C39** The selected words are candidates, share no character pairwise, and for every candidate some selected word with at least its score
    is the candidate itself or overlaps it (greedy maximality); so a highest-scored candidate is always selected. -/
theorem C39_selection (score : LR → Rat) (cands : List LR) :
    (∀ x ∈ selectBestLR score cands, x ∈ cands) ∧ (selectBestLR score cands).Pairwise Apart ∧
    (∀ c ∈ cands, ∃ x ∈ selectBestLR score cands, score c ≤ score x ∧ (x = c ∨ ¬ Apart x c)) := by
  have hp := perm_selectBest score cands
  have hs := pairwise_sorted (totalPre_score (α := LR)) (cands.map (fun c => (c, score c)))
  have hmem : ∀ p : LR × Rat, p ∈ sorted (fun x y => decide (-x.2 ≤ -y.2)) (cands.map (fun c => (c, score c))) ↔ p.1 ∈ cands ∧ p.2 = score p.1 := by
    intro p
    rw [(sorted_perm _ _).mem_iff, List.mem_map]
    constructor
    · rintro ⟨c, hc, rfl⟩; exact ⟨hc, rfl⟩
    · rintro ⟨h1, h2⟩; exact ⟨p.1, h1, by rw [← h2]⟩
  obtain ⟨h1, _, h3, h4⟩ := removeGo_spec cands.length (sorted (fun x y => decide (-x.2 ≤ -y.2)) (cands.map (fun c => (c, score c)))) []
    (by rw [(sorted_perm _ _).length_eq, List.length_map])
    (hs.imp (fun h => by rw [decide_eq_true_iff] at h; exact neg_le_neg_iff.1 h)) .nil (by simp)
  refine ⟨?_, ?_, ?_⟩
  · intro x hx
    rcases h1 x (hp.mem_iff.1 hx) with h | ⟨s, h⟩
    · cases h
    · exact ((hmem _).1 h).1
  · exact (hp.pairwise_iff (fun h => h.symm)).2 h3
  · intro c hc
    obtain ⟨x, s, hx1, hx2, hx3, hx4⟩ := h4 (c, score c) ((hmem _).2 ⟨hc, rfl⟩)
    have := ((hmem _).1 hx1).2
    dsimp only at this hx3
    exact ⟨x, hp.mem_iff.2 hx2, by rw [← this]; exact hx3, hx4⟩

/-! ### postprocessing -/

/-- the words with the gaps between `pos` and the end filled -/
private def fill (token : Str) : Nat → List LR → List LR
  | pos, [] => if pos < token.length then [unknown token pos token.length] else []
  | pos, w :: ws => (if pos < w.b then [unknown token pos w.b] else []) ++ w :: fill token w.e ws

/-- well-placed words: in order, each non-empty and inside the token -/
private def Ordered (token : Str) : Nat → List LR → Prop
  | pos, [] => pos ≤ token.length
  | pos, w :: ws => pos ≤ w.b ∧ w.b < w.e ∧ Ordered token w.e ws

private theorem fill_bounds (token : Str) (pos : Nat) (ws : List LR) (h : Ordered token pos ws) :
    (∀ x ∈ fill token pos ws, pos ≤ x.b) ∧ (fill token pos ws).Pairwise (fun x y => x.b < y.b) := by
  induction ws generalizing pos with
  | nil =>
    unfold fill
    split <;> simp [unknown]
  | cons w ws ih =>
    obtain ⟨h1, h2, h3⟩ := h
    obtain ⟨i1, i2⟩ := ih w.e h3
    unfold fill
    constructor
    · intro x hx
      rcases List.mem_append.1 hx with hx | hx
      · split at hx
        · rw [List.mem_singleton] at hx; subst hx; simp [unknown]
        · cases hx
      · rcases List.mem_cons.1 hx with rfl | hx
        · exact h1
        · have := i1 x hx; omega
    · refine List.pairwise_append.2 ⟨by split <;> simp, List.pairwise_cons.2 ⟨fun x hx => by have := i1 x hx; omega, i2⟩, ?_⟩
      intro a ha b hb
      split at ha
      · rw [List.mem_singleton] at ha
        subst ha
        simp only [unknown]
        rcases List.mem_cons.1 hb with rfl | hb
        · assumption
        · have := i1 b hb; omega
      · cases ha

private theorem fill_perm (token : Str) (w : LR) (ws : List LR) (h : Ordered token w.e ws) (f : List LR) :
    (w :: ws ++ (f ++ lastSub token (w :: ws) ++ interSubwords token (w :: ws))).Perm (f ++ w :: fill token w.e ws) := by
  induction ws generalizing w f with
  | nil =>
    simp only [lastSub, List.getLast?_singleton, interSubwords, fill, List.append_nil]
    exact (List.perm_middle (a := w) (l₁ := f) (l₂ := _)).symm
  | cons y ws ih =>
    obtain ⟨h1, h2, h3⟩ := h
    have := ih y h3 (if w.e < y.b then [unknown token w.e y.b] else [])
    have hlast : lastSub token (w :: y :: ws) = lastSub token (y :: ws) := by simp [lastSub, List.getLast?_cons_cons]
    have hint : interSubwords token (w :: y :: ws) = (if w.e < y.b then [unknown token w.e y.b] else []) ++ interSubwords token (y :: ws) := by
      rw [interSubwords]
      by_cases e : w.e = y.b
      · simp [e]
      · rw [if_neg e, if_pos (by omega)]
    rw [hlast, hint, fill]
    refine List.Perm.trans ?_ ((this.cons w).append_left f)
    generalize (if w.e < y.b then [unknown token w.e y.b] else []) = g
    generalize lastSub token (y :: ws) = la
    generalize interSubwords token (y :: ws) = it
    rw [List.perm_iff_count]
    intro a
    simp only [List.count_append, List.count_cons, List.cons_append]
    omega

private theorem postprocess_ordered (token : Str) (ws : List LR) (hne : ws ≠ []) (h : Ordered token 0 ws) : postprocess token ws = fill token 0 ws := by
  unfold postprocess
  apply sorted_eq_of_perm (⟨fun a b c h1 h2 => by simp only [decide_eq_true_eq] at *; omega, fun a b => by simp only [decide_eq_true_eq]; omega⟩)
  · cases ws with
    | nil => exact absurd rfl hne
    | cons w ws =>
      have := fill_perm token w ws h.2.2 (firstSub token (w :: ws))
      have hf : firstSub token (w :: ws) = if 0 < w.b then [unknown token 0 w.b] else [] := by simp [firstSub]
      rw [fill, ← hf]; exact this
  · refine (fill_bounds token 0 ws h).2.imp (fun hlt => ?_)
    simp only [decide_eq_true_eq, decide_eq_false_iff_not]; omega

private theorem spell_unknown (token : Str) (a b : Nat) (ws : List LR) : spell (flattenWords (unknown token a b :: ws)) = slice token a b ++ spell (flattenWords ws) := by
  rw [spell_flatten_cons]; simp [unknown]

private theorem spell_fill (d : State) (token : Str) (pos : Nat) (ws : List LR) (h : Ordered token pos ws) (hok : ∀ w ∈ ws, PieceOK d token w) :
    pos ≤ token.length ∧ spell (flattenWords (fill token pos ws)) = slice token pos token.length := by
  induction ws generalizing pos with
  | nil =>
    have h' : pos ≤ token.length := h
    refine ⟨h', ?_⟩
    unfold fill
    split
    · rw [spell_unknown]; simp [spell, flattenWords]
    · have : pos = token.length := by omega
      subst this; rw [slice_self]; rfl
  | cons w ws ih =>
    obtain ⟨h1, h2, h3⟩ := h
    obtain ⟨i1, i2⟩ := ih w.e h3 (fun x hx => hok x (by simp [hx]))
    have hw := hok w (by simp)
    have ho := hw.order
    refine ⟨by omega, ?_⟩
    have hword : spell (flattenWords (w :: fill token w.e ws)) = slice token w.b token.length := by
      rw [spell_flatten_cons, i2, hw.left, hw.right, slice_append _ (by omega) (by omega), slice_append _ (by omega) i1]
    unfold fill
    split
    · rw [List.singleton_append, spell_unknown, hword, slice_append _ h1 (by omega)]
    · have : pos = w.b := by omega
      rw [List.nil_append, hword, this]

private theorem ordered_of (token : Str) (ws : List LR) (pos : Nat) (hb : ∀ w ∈ ws, pos ≤ w.b ∧ w.b < w.e ∧ w.e ≤ token.length) (hp : pos ≤ token.length)
    (hs : ws.Pairwise (fun x y => x.e ≤ y.b)) : Ordered token pos ws := by
  induction ws generalizing pos with
  | nil => exact hp
  | cons w ws ih =>
    rw [List.pairwise_cons] at hs
    have := hb w (by simp)
    exact ⟨this.1, this.2.1, ih w.e (fun x hx => ⟨hs.1 x hx, (hb x (by simp [hx])).2⟩) this.2.2 hs.2⟩

theorem IsCandidate.piece {g : LRMatcher} {token : Str} {w : LR} (h : IsCandidate g token w) : PieceOK g.dictionary token w := by
  obtain ⟨t, ht, _, hw, hc⟩ := h.tags
  refine ⟨⟨by have := h.order; omega, h.order.2⟩, h.left, h.right, fun t' e => by rw [ht] at e; cases e; exact hw, fun t' e => ?_⟩
  rcases hc with ⟨_, hn⟩ | ⟨_, rt, _, hrt, hr⟩
  · rw [hn] at e; cases e
  · rw [hrt] at e; cases e; exact hr

/-- the words `SimpleTagger` emits for one eojeol with these components -/
def lrTag (g : LRMatcher) (score : LR → Rat) (eojeol : Str) : List (Str × Option Str) :=
  flattenWords (postprocess eojeol (selectBestLR score (g.generate eojeol)))

/-- **C39** `SimpleTagger.tag` never fails with these components and yields `lrTag` of each eojeol. -/
theorem C39_tag (g : LRMatcher) (score : LR → Rat) (sentence : Str) :
    tagSentence (fun e => some (selectBestLR score (g.generate e))) (some postprocess) sentence = .ok ((splitWs sentence).map (lrTag g score)) ∧
    tagFlat (fun e => some (selectBestLR score (g.generate e))) (some postprocess) sentence = .ok ((splitWs sentence).flatMap (lrTag g score)) := by
  have h : tagSentence (fun e => some (selectBestLR score (g.generate e))) (some postprocess) sentence = .ok ((splitWs sentence).map (lrTag g score)) := by
    unfold tagSentence
    induction splitWs sentence with
    | nil => rfl
    | cons e es ih => rw [List.mapM_cons, ih]; rfl
  refine ⟨h, ?_⟩
  unfold tagFlat
  rw [h, List.flatMap_def]

/-- how far, in all, each word begins before the end of the word listed just before it -/
def repeated : List LR → Nat
  | x :: y :: rest => (x.e - y.b) + repeated (y :: rest)
  | _ => 0

/-- **C39 (the lossless part)** If the selected words, in the order in which `select_best` returns them, are in text order, the
    emitted words spell the eojeol exactly. `select_best` sorts by the string `r`, so this is not automatic: see `C39_not_lossless`.
    It holds in particular when one word is selected. -/
theorem C39_lossless_in_order (g : LRMatcher) (hd : DReach g.dictionary) (hord : ∀ l, (g.ord l).Perm l) (score : LR → Rat) (eojeol : Str)
    (hne : g.generate eojeol ≠ [])
    (hsorted : (selectBestLR score (g.generate eojeol)).Pairwise (fun x y => x.e ≤ y.b)) :
    spell (lrTag g score eojeol) = eojeol := by
  obtain ⟨h1, h2, h3⟩ := C39_selection score (g.generate eojeol)
  have hc : ∀ w ∈ selectBestLR score (g.generate eojeol), IsCandidate g eojeol w := fun w hw => (C39_generate g hd hord eojeol w).1 (h1 w hw)
  have hne' : selectBestLR score (g.generate eojeol) ≠ [] := by
    obtain ⟨c, hc'⟩ := List.exists_mem_of_ne_nil _ hne
    obtain ⟨x, hx, _⟩ := h3 c hc'
    exact List.ne_nil_of_mem hx
  have ho : Ordered eojeol 0 (selectBestLR score (g.generate eojeol)) := by
    apply ordered_of eojeol _ 0 _ (Nat.zero_le _) hsorted
    intro w hw
    have := (hc w hw).order
    omega
  unfold lrTag
  rw [postprocess_ordered eojeol _ hne' ho, (spell_fill g.dictionary eojeol 0 _ ho (fun w hw => (hc w hw).piece)).2, slice_full]

private theorem length_fills (d : State) (token : Str) (w : LR) (ws : List LR) (hok : ∀ x ∈ w :: ws, PieceOK d token x) :
    (spell (flattenWords ((w :: ws) ++ (lastSub token (w :: ws) ++ interSubwords token (w :: ws))))).length + w.b = token.length + repeated (w :: ws) := by
  have happ : ∀ a b : List LR, (spell (flattenWords (a ++ b))).length = (spell (flattenWords a)).length + (spell (flattenWords b)).length := by
    intro a b
    unfold flattenWords
    rw [List.flatMap_append, spell_append, List.length_append]
  have hunk : ∀ a b : Nat, b ≤ token.length → (spell (flattenWords [unknown token a b])).length = b - a := by
    intro a b hb
    rw [spell_unknown, List.length_append, length_slice]
    have : (spell (flattenWords [])).length = 0 := rfl
    rw [this]
    omega
  induction ws generalizing w with
  | nil =>
    have hw := hok w (by simp)
    have ho := hw.order
    have h1 : (spell (flattenWords [w])).length = w.e - w.b := by
      rw [spell_flatten_cons, hw.left, hw.right, slice_append _ ho.1 ho.2.1, List.length_append, length_slice]
      have : (spell (flattenWords [])).length = 0 := rfl
      rw [this]; omega
    rw [happ, happ, h1]
    have h2 : (spell (flattenWords (lastSub token [w]))).length = token.length - w.e := by
      unfold lastSub
      rw [show [w].getLast? = some w from rfl]
      dsimp only
      by_cases h : w.e < token.length
      · rw [if_pos h, hunk _ _ (Nat.le_refl _)]
      · rw [if_neg h]; show 0 = _; omega
    have h3 : (spell (flattenWords (interSubwords token [w]))).length = 0 := rfl
    have h4 : repeated [w] = 0 := rfl
    rw [h2, h3, h4]; omega
  | cons y ws ih =>
    have := ih y (fun x hx => hok x (by simp [hx]))
    have hw := hok w (by simp)
    have hy := hok y (by simp)
    have ho := hw.order
    have hoy := hy.order
    have hl : lastSub token (w :: y :: ws) = lastSub token (y :: ws) := by unfold lastSub; rw [List.getLast?_cons_cons]
    have h1 : (spell (flattenWords (w :: (y :: ws)))).length = w.e - w.b + (spell (flattenWords (y :: ws))).length := by
      rw [spell_flatten_cons, hw.left, hw.right, slice_append _ ho.1 ho.2.1, List.length_append, length_slice]; omega
    have h2 : (spell (flattenWords (interSubwords token (w :: y :: ws)))).length = (y.b - w.e) + (spell (flattenWords (interSubwords token (y :: ws)))).length := by
      rw [interSubwords, happ]
      congr 1
      by_cases h : w.e = y.b
      · rw [if_pos h]; show 0 = _; omega
      · rw [if_neg h, hunk _ _ (by omega)]
    have h4 : repeated (w :: y :: ws) = (w.e - y.b) + repeated (y :: ws) := rfl
    rw [happ, happ] at this ⊢
    rw [hl, h1, h2, h4]
    omega

/-- **C39 (exactly how lossless)** The emitted words of an eojeol with a candidate are together as long as the eojeol plus, for every selected
    word that begins before the end of the one `select_best` returns just before it, that distance: text is repeated, never dropped. -/
theorem C39_length (g : LRMatcher) (hd : DReach g.dictionary) (hord : ∀ l, (g.ord l).Perm l) (score : LR → Rat) (eojeol : Str)
    (hne : g.generate eojeol ≠ []) :
    (spell (lrTag g score eojeol)).length = eojeol.length + repeated (selectBestLR score (g.generate eojeol)) := by
  obtain ⟨h1, h2, h3⟩ := C39_selection score (g.generate eojeol)
  have hc : ∀ w ∈ selectBestLR score (g.generate eojeol), IsCandidate g eojeol w := fun w hw => (C39_generate g hd hord eojeol w).1 (h1 w hw)
  have hne' : selectBestLR score (g.generate eojeol) ≠ [] := by
    obtain ⟨c, hc'⟩ := List.exists_mem_of_ne_nil _ hne
    obtain ⟨x, hx, _⟩ := h3 c hc'
    exact List.ne_nil_of_mem hx
  have hperm : ∀ a b : List LR, a.Perm b → (spell (flattenWords a)).length = (spell (flattenWords b)).length := by
    intro a b h
    unfold flattenWords spell
    exact (((h.flatMap_right _).map _).flatten).length_eq
  unfold lrTag postprocess
  rw [hperm _ _ (sorted_perm _ _)]
  generalize selectBestLR score (g.generate eojeol) = ws at hc hne'
  cases ws with
  | nil => exact absurd rfl hne'
  | cons w ws =>
    have := length_fills g.dictionary eojeol w ws (fun x hx => (hc x hx).piece)
    have hp : ((w :: ws) ++ (firstSub eojeol (w :: ws) ++ lastSub eojeol (w :: ws) ++ interSubwords eojeol (w :: ws))).Perm
        (firstSub eojeol (w :: ws) ++ ((w :: ws) ++ (lastSub eojeol (w :: ws) ++ interSubwords eojeol (w :: ws)))) := by
      rw [List.append_assoc]
      exact List.perm_append_comm_assoc _ _ _
    rw [hperm _ _ hp]
    have hw := (hc w (by simp)).order
    have hf : (spell (flattenWords (firstSub eojeol (w :: ws)))).length = w.b := by
      unfold firstSub
      rw [show (w :: ws).head? = some w from rfl]
      dsimp only
      by_cases h : w.b > 0
      · rw [if_pos h, spell_unknown, List.length_append, length_slice]
        have : (spell (flattenWords [])).length = 0 := rfl
        rw [this]; omega
      · rw [if_neg h]; show 0 = _; omega
    unfold flattenWords at this hf ⊢
    rw [List.flatMap_append, spell_append, List.length_append, hf]
    omega

/-- **C39 (exactly when lossless)** The emitted words of an eojeol with a candidate spell the eojeol if and only if `select_best` returns the
    selected words in text order. -/
theorem C39_lossless_iff (g : LRMatcher) (hd : DReach g.dictionary) (hord : ∀ l, (g.ord l).Perm l) (score : LR → Rat) (eojeol : Str)
    (hne : g.generate eojeol ≠ []) :
    spell (lrTag g score eojeol) = eojeol ↔ (selectBestLR score (g.generate eojeol)).Pairwise (fun x y => x.e ≤ y.b) := by
  constructor
  · intro h
    have hl := C39_length g hd hord score eojeol hne
    rw [h] at hl
    have h0 : repeated (selectBestLR score (g.generate eojeol)) = 0 := by omega
    have ho : ∀ w ∈ selectBestLR score (g.generate eojeol), w.b ≤ w.e := by
      intro w hw
      have := ((C39_generate g hd hord eojeol w).1 ((C39_selection score (g.generate eojeol)).1 w hw)).order
      omega
    generalize selectBestLR score (g.generate eojeol) = ws at h0 ho
    clear hl h
    induction ws with
    | nil => exact .nil
    | cons x ws ih =>
      cases ws with
      | nil => simp
      | cons y ws =>
        have h4 : repeated (x :: y :: ws) = (x.e - y.b) + repeated (y :: ws) := rfl
        have := ih (by omega) (fun w hw => ho w (by simp [hw]))
        refine List.pairwise_cons.2 ⟨fun z hz => ?_, this⟩
        rcases List.mem_cons.1 hz with rfl | hz
        · omega
        · have := (List.pairwise_cons.1 this).1 z hz
          have := ho y (by simp)
          omega
  · exact C39_lossless_in_order g hd hord score eojeol hne

/-- **C39** One selected word: lossless without further condition. -/
theorem C39_lossless_single (g : LRMatcher) (hd : DReach g.dictionary) (hord : ∀ l, (g.ord l).Perm l) (score : LR → Rat) (eojeol : Str) (w : LR)
    (h : selectBestLR score (g.generate eojeol) = [w]) : spell (lrTag g score eojeol) = eojeol := by
  apply C39_lossless_in_order g hd hord score eojeol
  · intro hnil
    have := (C39_selection score (g.generate eojeol)).1 w (by rw [h]; simp)
    rw [hnil] at this; cases this
  · rw [h]; simp

/-- **C39** With whatever selection, every emitted word is a piece of the eojeol, every tag is right by the dictionary, and every selected
    word is emitted with its tag. -/
theorem C39_tags (g : LRMatcher) (hd : DReach g.dictionary) (hord : ∀ l, (g.ord l).Perm l) (score : LR → Rat) (eojeol : Str) :
    (∀ x ∈ lrTag g score eojeol, (∃ a b, x.1 = slice eojeol a b) ∧ ∀ t, x.2 = some t → g.dictionary.wordIsTag x.1 t = true) ∧
    (∀ w ∈ selectBestLR score (g.generate eojeol), (w.l, w.lTag) ∈ lrTag g score eojeol ∧ (w.r ≠ [] → (w.r, w.rTag) ∈ lrTag g score eojeol)) := by
  obtain ⟨h1, h2, h3⟩ := C39_selection score (g.generate eojeol)
  have hc : ∀ w ∈ selectBestLR score (g.generate eojeol), IsCandidate g eojeol w := fun w hw => (C39_generate g hd hord eojeol w).1 (h1 w hw)
  have hinter : ∀ ws : List LR, ∀ x ∈ interSubwords eojeol ws, ∃ a b, x = unknown eojeol a b := by
    intro ws
    induction ws with
    | nil => intro x hx; cases hx
    | cons y ws ih =>
      cases ws with
      | nil => intro x hx; cases hx
      | cons z rest =>
        intro x hx
        rw [interSubwords] at hx
        rcases List.mem_append.1 hx with hx | hx
        · split at hx
          · cases hx
          · rw [List.mem_singleton] at hx; exact ⟨_, _, hx⟩
        · exact ih x hx
  have hmem : ∀ x, x ∈ postprocess eojeol (selectBestLR score (g.generate eojeol)) →
      x ∈ selectBestLR score (g.generate eojeol) ∨ ∃ a b, x = unknown eojeol a b := by
    intro x hx
    unfold postprocess at hx
    rw [(sorted_perm _ _).mem_iff] at hx
    rcases List.mem_append.1 hx with hx | hx
    · exact Or.inl hx
    · right
      rcases List.mem_append.1 hx with hx | hx
      · rcases List.mem_append.1 hx with hx | hx
        · unfold firstSub at hx
          split at hx
          · split at hx
            · rw [List.mem_singleton] at hx; exact ⟨_, _, hx⟩
            · cases hx
          · cases hx
        · unfold lastSub at hx
          split at hx
          · split at hx
            · rw [List.mem_singleton] at hx; exact ⟨_, _, hx⟩
            · cases hx
          · cases hx
      · exact hinter _ x hx
  constructor
  · intro x hx
    unfold lrTag flattenWords at hx
    obtain ⟨w, hw, hx⟩ := List.mem_flatMap.1 hx
    rcases hmem w hw with hw | ⟨a, b, rfl⟩
    · have hp := (hc w hw).piece
      rcases List.mem_append.1 hx with hx | hx
      · split at hx
        · cases hx
        · rw [List.mem_singleton] at hx; subst hx; exact ⟨⟨_, _, hp.left⟩, hp.leftTag⟩
      · split at hx
        · cases hx
        · rw [List.mem_singleton] at hx; subst hx; exact ⟨⟨_, _, hp.right⟩, hp.rightTag⟩
    · rcases List.mem_append.1 hx with hx | hx
      · split at hx
        · cases hx
        · rw [List.mem_singleton] at hx; subst hx; exact ⟨⟨a, b, rfl⟩, fun t ht => by cases ht⟩
      · rw [if_pos (show (unknown eojeol a b).r = [] from rfl)] at hx; cases hx
  · intro w hw
    have hin : w ∈ postprocess eojeol (selectBestLR score (g.generate eojeol)) := by
      unfold postprocess
      rw [(sorted_perm _ _).mem_iff]
      exact List.mem_append_left _ hw
    have hl : w.l ≠ [] := by
      have := (hc w hw).order
      rw [(hc w hw).left, Ne, slice_eq_nil (by omega)]; omega
    unfold lrTag flattenWords
    refine ⟨List.mem_flatMap.2 ⟨w, hin, by simp [hl]⟩, fun hr => List.mem_flatMap.2 ⟨w, hin, by simp [hr]⟩⟩

/-- **C39** An eojeol in which no part of two or more characters has an L tag disappears from the output. -/
theorem C39_vanishes (g : LRMatcher) (hd : DReach g.dictionary) (hord : ∀ l, (g.ord l).Perm l) (score : LR → Rat) (eojeol : Str) :
    lrTag g score eojeol = [] ↔ ∀ b m t, b + 2 ≤ m → m ≤ eojeol.length → t ∈ g.ltags → g.dictionary.wordIsTag (slice eojeol b m) t = false := by
  constructor
  · intro h b m t h1 h2 h3
    rw [Bool.eq_false_iff]
    intro hw
    have hc : (⟨slice eojeol b m, some t, [], none, b, m, m⟩ : LR) ∈ g.generate eojeol :=
      (C39_generate g hd hord eojeol _).2 ⟨⟨h1, Nat.le_refl _, h2⟩, rfl, by rw [slice_self], t, rfl, h3, hw, Or.inl ⟨rfl, rfl⟩⟩
    obtain ⟨x, hx, _⟩ := (C39_selection score (g.generate eojeol)).2.2 _ hc
    have := ((C39_tags g hd hord score eojeol).2 x hx).1
    rw [h] at this; cases this
  · intro h
    have hnil : g.generate eojeol = [] := by
      rw [List.eq_nil_iff_forall_not_mem]
      intro w hw
      have hc := (C39_generate g hd hord eojeol w).1 hw
      obtain ⟨t, _, ht, hw', _⟩ := hc.tags
      have := h w.b w.m t hc.order.1 (by have := hc.order; omega) ht
      rw [← hc.left, hw'] at this; cases this
    unfold lrTag
    rw [hnil]; rfl

/-- **C39** Losslessness fails in general: with nouns 아이, 노래 and josa 는 the eojeol 아이는노래 is tagged as
    아이, 는, 아이는 (unknown), 노래, 노래 (unknown) — because `select_best` returns 노래 before 아이+는 (it sorts by `r`). -/
theorem C39_not_lossless : ∃ s, DReach s ∧
    lrTag { dictionary := s } (evaluateLR {}) "아이는노래".toList =
      [("아이".toList, some "Noun".toList), ("는".toList, some "Josa".toList), ("아이는".toList, none), ("노래".toList, some "Noun".toList), ("노래".toList, none)] ∧
    spell (lrTag { dictionary := s } (evaluateLR {}) "아이는노래".toList) ≠ "아이는노래".toList :=
  ⟨⟨[("Noun".toList, 0), ("Josa".toList, 1)], [.set ["아이".toList, "노래".toList], .set ["는".toList]], 2⟩,
    .create [("Noun".toList, ["아이".toList, "노래".toList]), ("Josa".toList, ["는".toList])] _ (by unfold Dict.WF; decide) rfl,
    by decide +kernel, by decide +kernel⟩

/-- the hypotheses of the lossless theorem are met: 노래 gap 아이는 -/
example : ∃ s, create [("Noun".toList, ["아이".toList, "노래".toList]), ("Josa".toList, ["는".toList])] = .ok s ∧
    (selectBestLR (evaluateLR {}) (LRMatcher.generate { dictionary := s } "노래쏭아이는".toList)).map (·.b) = [0, 3] ∧
    lrTag { dictionary := s } (evaluateLR {}) "노래쏭아이는".toList =
      [("노래".toList, some "Noun".toList), ("쏭".toList, none), ("아이".toList, some "Noun".toList), ("는".toList, some "Josa".toList)] :=
  ⟨_, rfl, by decide +kernel, by decide +kernel⟩

end Props
