import Verif.Props.C38
import Verif.Py.Slice
import Verif.Py.Str
/-! C40: `EojeolTemplateMatcher`, `select_best`, and tagging with them. -/
set_option linter.unusedSimpArgs false
set_option linter.unusedVariables false
namespace Props
open Py PT

/-- a word with consistent offsets in `token`, whose tags are right by the dictionary -/
structure PieceOK (d : State) (token : Str) (w : LR) : Prop where
  order : w.b ≤ w.m ∧ w.m ≤ w.e ∧ w.e ≤ token.length
  left : w.l = slice token w.b w.m
  right : w.r = slice token w.m w.e
  leftTag : ∀ t, w.lTag = some t → d.wordIsTag w.l t = true
  rightTag : ∀ t, w.rTag = some t → d.wordIsTag w.r t = true

/-- the words follow each other without gap from `b` to `e` -/
def Contig : Nat → Nat → List LR → Prop
  | b, e, [] => b = e
  | b, e, w :: ws => w.b = b ∧ Contig w.e e ws

/-- the text spelled by tagged words -/
def spell (out : List (Str × Option Str)) : Str := out.flatMap (·.1)

theorem spell_append (a b : List (Str × Option Str)) : spell (a ++ b) = spell a ++ spell b := by simp [spell]

theorem spell_flatten_cons (w : LR) (ws : List LR) : spell (flattenWords (w :: ws)) = w.l ++ w.r ++ spell (flattenWords ws) := by
  unfold flattenWords
  rw [List.flatMap_cons, spell_append]
  congr 1
  by_cases h1 : w.l = [] <;> by_cases h2 : w.r = [] <;> simp [h1, h2, spell]

/-- contiguous consistent words spell the text between their ends -/
theorem spell_contig (d : State) (token : Str) (ws : List LR) (hok : ∀ w ∈ ws, PieceOK d token w) (b e : Nat) (he : e ≤ token.length)
    (h : Contig b e ws) : b ≤ e ∧ spell (flattenWords ws) = slice token b e := by
  induction ws generalizing b with
  | nil => cases h; exact ⟨Nat.le_refl _, by rw [slice_self]; rfl⟩
  | cons w ws ih =>
    obtain ⟨h1, h2⟩ := ih (fun x hx => hok x (by simp [hx])) w.e h.2
    have hw := hok w (by simp)
    have ho := hw.order
    have hb := h.1
    refine ⟨by omega, ?_⟩
    rw [spell_flatten_cons, h2, hw.left, hw.right, hb]
    rw [slice_append _ (by omega) (by omega), slice_append _ (by omega) h1]

/-! ### compound words -/

theorem findWord_spec (d : State) (tag token : Str) (b : Nat) (i fuel j : Nat) (h : findWord d tag token b i fuel = some j) :
    i ≤ j ∧ j < i + fuel ∧ d.wordIsTag (slice token b j) tag = true ∧ ¬ (b = 0 ∧ j = token.length) ∧
    (∀ k, i ≤ k → k < j → d.wordIsTag (slice token b k) tag = false) := by
  induction fuel generalizing i with
  | zero => cases h
  | succ fuel ih =>
    rw [findWord] at h
    split at h
    · cases h
    · rename_i h0
      split at h
      · rename_i hw; cases h; exact ⟨Nat.le_refl _, by omega, hw, h0, fun k h1 h2 => by omega⟩
      · rename_i hw
        obtain ⟨h1, h2, h3, h4, h5⟩ := ih (i + 1) h
        refine ⟨by omega, by omega, h3, h4, ?_⟩
        intro k hk1 hk2
        by_cases e : k = i
        · rw [e]; simpa using hw
        · exact h5 k (by omega) hk2

private theorem decomposeGo_spec (d : State) (tag token : Str) (fuel b : Nat) (hb : b ≤ token.length) (acc : List LR)
    (hacc : ∀ w ∈ acc, PieceOK d token w ∧ w.lTag = some tag ∧ w.r = [] ∧ w.b < w.e ∧ ¬ (w.b = 0 ∧ w.e = token.length)) (hc : Contig 0 b acc) :
    decomposeGo d tag token fuel b acc = [] ∨
    ((∀ w ∈ decomposeGo d tag token fuel b acc, PieceOK d token w ∧ w.lTag = some tag ∧ w.r = [] ∧ w.b < w.e ∧ ¬ (w.b = 0 ∧ w.e = token.length)) ∧
      Contig 0 token.length (decomposeGo d tag token fuel b acc)) := by
  induction fuel generalizing b acc with
  | zero => left; rfl
  | succ fuel ih =>
    rw [decomposeGo]
    split
    · rename_i hlt
      split
      · left; rfl
      · rename_i i hi
        obtain ⟨h1, h2, h3, h4, _⟩ := findWord_spec d tag token b _ _ i hi
        apply ih i (by omega)
        · intro w hw
          rcases List.mem_append.1 hw with hw | hw
          · exact hacc w hw
          · rw [List.mem_singleton] at hw
            subst hw
            exact ⟨⟨⟨by dsimp only; omega, by dsimp only; omega, by dsimp only; omega⟩, rfl, by rw [slice_self], fun t ht => by cases ht; exact h3, fun t ht => by cases ht⟩, rfl, rfl, by dsimp only; omega, h4⟩
        · have : ∀ (ws : List LR) (a : Nat) (w : LR), Contig a w.b ws → Contig a w.e (ws ++ [w]) := by
            intro ws
            induction ws with
            | nil => intro a w h; exact ⟨h.symm, rfl⟩
            | cons x ws ih => intro a w h; exact ⟨h.1, ih _ _ h.2⟩
          exact this acc 0 ⟨_, _, _, _, b, i, i⟩ hc
    · right
      have : b = token.length := by omega
      exact ⟨hacc, this ▸ hc⟩

theorem decompose_spec (d : State) (token tag : Str) (h : decomposeCompound d token tag ≠ []) :
    (∀ w ∈ decomposeCompound d token tag, PieceOK d token w ∧ w.lTag = some tag ∧ w.r = [] ∧ w.b < w.e ∧ ¬ (w.b = 0 ∧ w.e = token.length)) ∧
      Contig 0 token.length (decomposeCompound d token tag) := by
  rcases decomposeGo_spec d tag token (token.length + 1) 0 (Nat.zero_le _) [] (by simp) rfl with h' | h'
  · exact absurd h' h
  · exact h'

/-! ### the matcher -/

theorem mem_getPos {s : State} (h : DReach s) {word tag : Str} : tag ∈ s.getPos word ↔ s.wordIsTag word tag = true := (C38_get_pos s h word tag).2

/-- **C40** There is always a candidate; every candidate is a gapless sequence of words from the beginning to the end of the eojeol, with
    consistent offsets and tags taken from the dictionary; an untagged word appears only when the eojeol has none of the single tags. -/
theorem C40_candidates (g : EojeolMatcher) (hd : DReach g.dictionary) (eojeol : Str) :
    g.generate eojeol ≠ [] ∧
    ∀ c ∈ g.generate eojeol, c ≠ [] ∧ (∀ w ∈ c, PieceOK g.dictionary eojeol w) ∧ Contig 0 eojeol.length c ∧ spell (flattenWords c) = eojeol ∧
      ((∃ w ∈ c, w.lTag = none) → ∀ t ∈ g.singleTags, g.dictionary.wordIsTag eojeol t = false) := by
  have hs : singles g eojeol ≠ [] ∧ ∀ c ∈ singles g eojeol, ∃ w, c = [w] ∧ w.b = 0 ∧ w.e = eojeol.length ∧ PieceOK g.dictionary eojeol w ∧
      (w.lTag = none → ∀ t ∈ g.singleTags, g.dictionary.wordIsTag eojeol t = false) := by
    unfold singles
    dsimp only
    split
    · rename_i hnil
      refine ⟨by simp, ?_⟩
      intro c hc
      rw [List.mem_singleton] at hc
      subst hc
      refine ⟨_, rfl, rfl, rfl, ⟨⟨by simp, by simp, by simp⟩, by simp [slice_full], by simp [slice_self], fun t ht => (by cases ht), fun t ht => (by cases ht)⟩, fun _ t ht => ?_⟩
      rw [List.map_eq_nil_iff, List.filter_eq_nil_iff] at hnil
      rw [Bool.eq_false_iff]
      intro hc
      exact hnil t ((mem_getPos hd).2 hc) (by simpa using ht)
    · rename_i hne
      refine ⟨hne, ?_⟩
      intro c hc
      obtain ⟨t, ht, rfl⟩ := List.mem_map.1 hc
      obtain ⟨ht1, ht2⟩ := List.mem_filter.1 ht
      exact ⟨_, rfl, rfl, rfl, ⟨⟨by simp, by simp, by simp⟩, by simp [slice_full], by simp [slice_self], fun t' ht' => by cases ht'; exact (mem_getPos hd).1 ht1, fun t ht => by cases ht⟩, fun h => by cases h⟩
  have hp : ∀ c ∈ pairs g eojeol, ∃ w, c = [w] ∧ w.b = 0 ∧ w.e = eojeol.length ∧ PieceOK g.dictionary eojeol w ∧ w.lTag ≠ none := by
    intro c hc
    unfold pairs at hc
    obtain ⟨b, hb, hc⟩ := List.mem_flatMap.1 hc
    obtain ⟨t, ht, rfl⟩ := List.mem_map.1 hc
    obtain ⟨ht1, ht2⟩ := List.mem_filter.1 ht
    rw [Bool.and_eq_true] at ht2
    have := List.mem_range.1 hb
    exact ⟨_, rfl, rfl, rfl, ⟨⟨by dsimp only; omega, by dsimp only; omega, by simp⟩, by simp [slice_zero], by simp [slice_to_end], fun t' e => by cases e; exact ht2.1, fun t' e => by cases e; exact ht2.2⟩, by simp⟩
  have single : ∀ w : LR, w.b = 0 → w.e = eojeol.length → Contig 0 eojeol.length [w] := fun w h1 h2 => ⟨h1, h2⟩
  have hall : ∀ c ∈ g.generate eojeol, c ≠ [] ∧ (∀ w ∈ c, PieceOK g.dictionary eojeol w) ∧ Contig 0 eojeol.length c ∧
      ((∃ w ∈ c, w.lTag = none) → ∀ t ∈ g.singleTags, g.dictionary.wordIsTag eojeol t = false) := by
    intro c hc
    unfold EojeolMatcher.generate at hc
    dsimp only at hc
    rcases List.mem_append.1 hc with hc | hc
    · rcases List.mem_append.1 hc with hc | hc
      · rcases List.mem_append.1 hc with hc | hc
        · obtain ⟨w, rfl, h1, h2, h3, h4⟩ := hs.2 c hc
          exact ⟨by simp, by simpa using h3, single w h1 h2, by simpa using h4⟩
        · obtain ⟨w, rfl, h1, h2, h3, h4⟩ := hp c hc
          exact ⟨by simp, by simpa using h3, single w h1 h2, by rintro ⟨x, hx, hn⟩; rw [List.mem_singleton] at hx; subst hx; exact absurd hn h4⟩
      · split at hc
        · cases hc
        · rename_i hne
          rw [List.mem_singleton] at hc
          subst hc
          obtain ⟨h1, h2⟩ := decompose_spec _ _ _ hne
          exact ⟨hne, fun w hw => (h1 w hw).1, h2, by rintro ⟨x, hx, hn⟩; rw [(h1 x hx).2.1] at hn; cases hn⟩
    · split at hc
      · cases hc
      · rename_i hne
        rw [List.mem_singleton] at hc
        subst hc
        obtain ⟨h1, h2⟩ := decompose_spec _ _ _ hne
        exact ⟨hne, fun w hw => (h1 w hw).1, h2, by rintro ⟨x, hx, hn⟩; rw [(h1 x hx).2.1] at hn; cases hn⟩
  constructor
  · unfold EojeolMatcher.generate
    dsimp only
    intro h
    simp only [List.append_eq_nil_iff] at h
    exact hs.1 h.1.1.1
  · intro c hc
    obtain ⟨h1, h2, h3, h4⟩ := hall c hc
    refine ⟨h1, h2, h3, ?_, h4⟩
    have := (spell_contig _ _ c h2 0 _ (Nat.le_refl _) h3).2
    rw [this, slice_full]

/-- **C40** The matcher misses none of: the eojeol itself under each of its single tags, and each split into two dictionary words matching
    an L-R template. -/
theorem C40_complete (g : EojeolMatcher) (hd : DReach g.dictionary) (eojeol : Str) :
    (∀ t ∈ g.singleTags, g.dictionary.wordIsTag eojeol t = true → [(⟨eojeol, some t, [], none, 0, eojeol.length, eojeol.length⟩ : LR)] ∈ g.generate eojeol) ∧
    (∀ l r lt rt, l ≠ [] → r ≠ [] → eojeol = l ++ r → (lt, rt) ∈ g.lrTemplates → g.dictionary.wordIsTag l lt = true → g.dictionary.wordIsTag r rt = true →
      [(⟨l, some lt, r, some rt, 0, l.length, eojeol.length⟩ : LR)] ∈ g.generate eojeol) := by
  constructor
  · intro t ht hw
    unfold EojeolMatcher.generate
    dsimp only
    refine List.mem_append_left _ (List.mem_append_left _ (List.mem_append_left _ ?_))
    unfold singles
    dsimp only
    have hm : [(⟨eojeol, some t, [], none, 0, eojeol.length, eojeol.length⟩ : LR)] ∈
        ((g.dictionary.getPos eojeol).filter (fun t => decide (t ∈ g.singleTags))).map (fun t => [(⟨eojeol, some t, [], none, 0, eojeol.length, eojeol.length⟩ : LR)]) :=
      List.mem_map.2 ⟨t, List.mem_filter.2 ⟨(mem_getPos hd).2 hw, by simpa using ht⟩, rfl⟩
    rw [if_neg (fun h => by rw [h] at hm; cases hm)]
    exact hm
  · intro l r lt rt hl hr he ht h1 h2
    unfold EojeolMatcher.generate
    dsimp only
    refine List.mem_append_left _ (List.mem_append_left _ (List.mem_append_right _ ?_))
    unfold pairs
    have hl' : 0 < l.length := List.length_pos_iff.2 hl
    have hr' : 0 < r.length := List.length_pos_iff.2 hr
    have e1 : eojeol.take l.length = l := by rw [he]; simp
    have e2 : eojeol.drop l.length = r := by rw [he]; simp
    refine List.mem_flatMap.2 ⟨l.length - 1, List.mem_range.2 (by rw [he, List.length_append]; omega), ?_⟩
    rw [show l.length - 1 + 1 = l.length by omega, e1, e2]
    exact List.mem_map.2 ⟨(lt, rt), List.mem_filter.2 ⟨ht, by rw [h1, h2]; rfl⟩, rfl⟩

/-- **C40** Compounds are searched greedily, shortest word first and without backtracking: `ab`+`c` is missed when `a` is a noun too. -/
theorem C40_compound_greedy : ∃ s : State, DReach s ∧ s.wordIsTag "ab".toList "Noun".toList = true ∧ s.wordIsTag "c".toList "Noun".toList = true ∧
    decomposeCompound s "abc".toList "Noun".toList = [] :=
  ⟨⟨[("Noun".toList, 0)], [.set ["ab".toList, "c".toList, "a".toList]], 2⟩,
    .create [("Noun".toList, ["ab".toList, "c".toList, "a".toList])] _ (by unfold Dict.WF; decide) rfl, by decide +kernel, by decide +kernel, by decide +kernel⟩

/-! ### selection -/

private theorem head_sortInsert {α : Type} (le : α → α → Bool) (a : α) (l : List α) :
    (sortInsert le a l).head? = some (match l.head? with | none => a | some b => if le a b then a else b) := by
  cases l with
  | nil => rfl
  | cons b l => simp only [sortInsert]; split <;> simp_all

/-- **C40** `select_best` returns the first of the candidates with the highest score, and nothing only when there is no candidate. -/
theorem C40_select_best {α : Type} (score : α → Rat) (candidates : List α) :
    (selectBest score candidates = none ↔ candidates = []) ∧
    ∀ c, selectBest score candidates = some c →
      ∃ before after, candidates = before ++ c :: after ∧ (∀ x ∈ before, score x < score c) ∧ (∀ x ∈ after, score x ≤ score c) := by
  unfold selectBest
  have key : ∀ cs : List α, ∀ p, (sorted (fun x y : α × Rat => decide (-x.2 ≤ -y.2)) (cs.map (fun c => (c, score c)))).head? = some p →
      p.2 = score p.1 ∧ ∃ before after, cs = before ++ p.1 :: after ∧ (∀ x ∈ before, score x < score p.1) ∧ (∀ x ∈ after, score x ≤ score p.1) := by
    intro cs
    induction cs with
    | nil => intro p h; cases h
    | cons a cs ih =>
      intro p h
      rw [List.map_cons, sorted, head_sortInsert] at h
      cases hh : (sorted (fun x y : α × Rat => decide (-x.2 ≤ -y.2)) (cs.map (fun c => (c, score c)))).head? with
      | none =>
        rw [hh] at h
        cases h
        have : cs = [] := by
          rw [List.head?_eq_none_iff] at hh
          have := (sorted_perm (fun x y : α × Rat => decide (-x.2 ≤ -y.2)) (cs.map (fun c => (c, score c)))).length_eq
          rw [hh] at this
          simpa using this.symm
        subst this
        exact ⟨rfl, [], [], rfl, by simp, by simp⟩
      | some q =>
        rw [hh] at h
        obtain ⟨hq, before, after, e, h1, h2⟩ := ih q hh
        dsimp only at h
        split at h
        · rename_i hle
          cases h
          have hle' : score q.1 ≤ score a := by
            rw [decide_eq_true_iff, hq] at hle; exact neg_le_neg_iff.1 hle
          refine ⟨rfl, [], cs, rfl, by simp, ?_⟩
          intro x hx
          rw [e] at hx
          rcases List.mem_append.1 hx with hx | hx
          · exact le_of_lt (lt_of_lt_of_le (h1 x hx) hle')
          · rcases List.mem_cons.1 hx with rfl | hx
            · exact hle'
            · exact le_trans (h2 x hx) hle'
        · rename_i hle
          have hpq := Option.some.inj h
          subst hpq
          have hlt : score a < score q.1 := by
            rw [decide_eq_true_iff, hq, neg_le_neg_iff] at hle; exact lt_of_not_ge hle
          refine ⟨hq, a :: before, after, by rw [e]; rfl, ?_, h2⟩
          intro x hx
          rcases List.mem_cons.1 hx with rfl | hx
          · exact hlt
          · exact h1 x hx
  constructor
  · rw [Option.map_eq_none_iff, List.head?_eq_none_iff]
    constructor
    · intro h
      have := (sorted_perm (fun x y : α × Rat => decide (-x.2 ≤ -y.2)) (candidates.map (fun c => (c, score c)))).length_eq
      rw [h] at this
      simpa using this.symm
    · rintro rfl; rfl
  · intro c h
    obtain ⟨p, hp, rfl⟩ := Option.map_eq_some_iff.1 h
    exact (key candidates p hp).2

/-! ### tagging a sentence -/

theorem interSubwords_contig (token : Str) (ws : List LR) (b e : Nat) (h : Contig b e ws) : interSubwords token ws = [] := by
  induction ws generalizing b with
  | nil => rfl
  | cons x ws ih =>
    cases ws with
    | nil => rfl
    | cons y rest =>
      rw [interSubwords, if_pos h.2.1.symm, ih _ h.2]; rfl

theorem contig_last (ws : List LR) (b e : Nat) (h : Contig b e ws) (w : LR) (hw : ws.getLast? = some w) : w.e = e := by
  induction ws generalizing b with
  | nil => cases hw
  | cons x ws ih =>
    cases ws with
    | nil => cases hw; exact h.2
    | cons y rest => rw [List.getLast?_cons_cons] at hw; exact ih _ h.2 hw

/-- the postprocessor changes nothing when the words already cover the eojeol -/
theorem postprocess_contig (d : State) (token : Str) (ws : List LR) (hok : ∀ w ∈ ws, PieceOK d token w) (h : Contig 0 token.length ws) :
    postprocess token ws = ws := by
  unfold postprocess
  have h1 : firstSub token ws = [] := by
    cases ws with
    | nil => rfl
    | cons w ws => simp [firstSub, h.1]
  have h2 : lastSub token ws = [] := by
    unfold lastSub
    cases hl : ws.getLast? with
    | none => rfl
    | some w => simp [contig_last ws 0 _ h w hl]
  rw [h1, h2, interSubwords_contig token ws _ _ h, List.append_nil, List.append_nil, List.append_nil]
  apply sorted_of_pairwise
  have : ∀ (ws : List LR) (b : Nat), (∀ w ∈ ws, PieceOK d token w) → Contig b token.length ws → (∀ w ∈ ws, b ≤ w.b) ∧ ws.Pairwise (fun x y => decide (x.b ≤ y.b) = true) := by
    intro ws
    induction ws with
    | nil => intro b _ _; exact ⟨by simp, .nil⟩
    | cons w ws ih =>
      intro b hok hc
      obtain ⟨i1, i2⟩ := ih w.e (fun x hx => hok x (by simp [hx])) hc.2
      have ho := (hok w (by simp)).order
      have hb := hc.1
      refine ⟨?_, List.pairwise_cons.2 ⟨?_, i2⟩⟩
      · intro x hx
        rcases List.mem_cons.1 hx with rfl | hx
        · omega
        · have := i1 x hx; omega
      · intro x hx
        have := i1 x hx
        rw [decide_eq_true_iff]; omega
  exact (this ws 0 hok h).2

private theorem mapM_all {α β : Type} (P : α → β → Prop) (f : α → PyM β) (l : List α) (h : ∀ a ∈ l, ∃ b, f a = .ok b ∧ P a b) :
    ∃ bs, l.mapM f = .ok bs ∧ List.Forall₂ P l bs := by
  induction l with
  | nil => exact ⟨[], rfl, .nil⟩
  | cons a l ih =>
    obtain ⟨b, hb, hp⟩ := h a (by simp)
    obtain ⟨bs, hbs, hps⟩ := ih (fun x hx => h x (by simp [hx]))
    refine ⟨b :: bs, ?_, .cons hp hps⟩
    rw [List.mapM_cons, hb, hbs]; rfl

/-- **C40** Tagging with this matcher, any scoring function and with or without the postprocessor never fails; the tagged words of each
    eojeol spell it, so the flattened result spells the sentence without its white space; every tag is right by the dictionary. -/
theorem C40_tag (g : EojeolMatcher) (hd : DReach g.dictionary) (score : List LR → Rat) (post : Option (Str → List LR → List LR))
    (hpost : post = none ∨ post = some postprocess) (sentence : Str) :
    ∃ out, tagSentence (fun e => selectBest score (g.generate e)) post sentence = .ok out ∧
      List.Forall₂ (fun e words => spell words = e ∧ ∀ x ∈ words, ∀ t, x.2 = some t → g.dictionary.wordIsTag x.1 t = true) (splitWs sentence) out ∧
      tagFlat (fun e => selectBest score (g.generate e)) post sentence = .ok out.flatten ∧
      spell out.flatten = sentence.filter (fun c => !isSpace c) := by
  obtain ⟨out, h1, h2⟩ := mapM_all (fun e words => spell words = e ∧ ∀ x ∈ words, ∀ t, x.2 = some t → g.dictionary.wordIsTag x.1 t = true)
    (tagEojeol (fun e => selectBest score (g.generate e)) post) (splitWs sentence) (by
    intro e _
    unfold tagEojeol
    dsimp only
    obtain ⟨hne, hall⟩ := C40_candidates g hd e
    cases hb : selectBest score (g.generate e) with
    | none => exact absurd ((C40_select_best score _).1.1 hb) hne
    | some c =>
      obtain ⟨before, after, hc, _, _⟩ := (C40_select_best score _).2 c hb
      obtain ⟨_, hp, hcontig, hspell, _⟩ := hall c (by rw [hc]; simp)
      have heq : applyPost post e c = c := by
        rcases hpost with h | h <;> subst h
        · rfl
        · exact postprocess_contig g.dictionary e c hp hcontig
      refine ⟨_, rfl, ?_⟩
      rw [heq]
      refine ⟨hspell, ?_⟩
      intro x hx t ht
      obtain ⟨w, hw, hx⟩ := List.mem_flatMap.1 hx
      rcases List.mem_append.1 hx with hx | hx
      · split at hx
        · cases hx
        · rw [List.mem_singleton] at hx; subst hx; exact (hp w hw).leftTag t ht
      · split at hx
        · cases hx
        · rw [List.mem_singleton] at hx; subst hx; exact (hp w hw).rightTag t ht)
  refine ⟨out, h1, h2, ?_, ?_⟩
  · have h1' : tagSentence (fun e => selectBest score (g.generate e)) post sentence = .ok out := h1
    unfold tagFlat
    rw [h1']
  · rw [← splitWs_flatten]
    generalize splitWs sentence = es at h2
    clear h1
    induction h2 with
    | nil => rfl
    | cons h _ ih => rw [List.flatten_cons, spell_append, ih, h.1, List.flatten_cons]

/-- a dictionary, an eojeol with a noun-josa reading, the default weights -/
example : ∃ s, create [("Noun".toList, ["아이".toList, "노래".toList]), ("Josa".toList, ["는".toList])] = .ok s ∧
    tagFlat (fun e => selectBest (evaluateEojeol {}) (EojeolMatcher.generate { dictionary := s } e)) none "아이는 노래노래".toList =
      .ok [("아이".toList, some "Noun".toList), ("는".toList, some "Josa".toList), ("노래".toList, some "Noun".toList), ("노래".toList, some "Noun".toList)] :=
  ⟨_, rfl, by decide +kernel⟩

end Props
