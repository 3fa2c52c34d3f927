import Verif.Props.C39Exact
import Mathlib.Tactic.NormNum
import Mathlib.Tactic.Ring
import Mathlib.Tactic.Linarith
import Mathlib.Algebra.Order.Group.Unbundled.Abs
import Mathlib.Algebra.Order.Field.Rat
/-! C88: what `LREvaluator` prefers. -/
set_option linter.unusedSimpArgs false
set_option linter.unusedVariables false
namespace Props
open Py PT

/-- 1 if the statement holds, else 0 -/
noncomputable def flag (p : Prop) : Rat := by
  classical exact if p then 1 else 0

/-- `dict[tag][word]` of a user's preferences, 0 where there is none -/
def preferred (p : Dict Str (Dict Str Rat)) : Option Str → Str → Rat
  | some t, w => match Dict.get? p t with
    | some d => (Dict.get? d w).getD 0
    | none => 0
  | none, _ => 0

/-- **C88** The score of a candidate is the sum of its features times their weights, plus the user's preferences for its two words. The feature of the weight
    called `is_verb` is the tag *Adverb*. -/
theorem C88_score (w : LWeights) (c : LR) :
    evaluateLR w c =
      (List.zipWith (· * ·)
        [flag (c.lTag = some "Noun".toList), flag (c.lTag.isSome ∧ c.rTag.isSome), flag (c.lTag = some "Adverb".toList),
          flag (c.lTag = some "Adjective".toList), (c.m : Rat) - c.b, (c.e : Rat) - c.m, flag (c.m = c.b + 1)]
        [w.isNounPhrase, w.lrAreKnown, w.isVerb, w.isAdjective, w.lLen, w.rLen, w.lIsASyllable]).sum +
      preferred w.preference c.lTag c.l + preferred w.preference c.rTag c.r := by
  have hb : ∀ (p : Prop) [Decidable p], b2r (decide p) = flag p := by
    intro p _; unfold b2r flag; by_cases h : p <;> simp [h]
  have hp : ∀ (t : Option Str) (x : Str), prefer w.preference t x = preferred w.preference t x := by
    intro t x
    cases t with
    | none => rfl
    | some t =>
      unfold prefer preferred
      dsimp only
      unfold Dict.getD
      cases Dict.get? w.preference t with
      | none => rfl
      | some d => cases h : Dict.get? d x <;> simp [h]
  have h1 : flag (c.lTag ≠ none ∧ c.rTag ≠ none) = flag (c.lTag.isSome ∧ c.rTag.isSome) := by
    congr 1; simp [Option.isSome_iff_ne_none]
  have h2 : flag ((c.m : Int) - c.b = 1) = flag (c.m = c.b + 1) := by
    congr 1; exact propext ⟨fun h => by omega, fun h => by omega⟩
  unfold evaluateLR
  rw [hb, hb, hb, hb, hb, hp, hp, h1, h2]
  simp only [List.zipWith_cons_cons, List.zipWith_nil_left, List.sum_cons, List.sum_nil]
  ring

/-- **C88** The weight called `is_verb` has no influence on a candidate whose L is a verb. -/
theorem C88_verb_weight (w : LWeights) (v : Rat) (c : LR) (h : c.lTag = some "Verb".toList) : evaluateLR { w with isVerb := v } c = evaluateLR w c := by
  have : flag (some "Verb".toList = some "Adverb".toList) = 0 := by unfold flag; rw [if_neg (by decide)]
  rw [C88_score, C88_score, h, this]
  simp

private theorem getD_one (N t : Str) (v : List Str) (h : t ≠ N) : Dict.getD [(N, v)] t [] = [] := by
  unfold Dict.getD
  rw [(Dict.get?_eq_none_iff _ _).2 (by simpa [Dict.keys] using h)]
  rfl

/-- with the default matcher: the tags of a candidate -/
private theorem default_tags (g : LRMatcher) (ht : g.templates = [("Noun".toList, ["Josa".toList, "Verb".toList, "Adjective".toList])]) (token : Str) (w : LR) (h : IsCandidate g token w) :
    (w.lTag = some "Noun".toList ∧ (w.m = w.e ∧ w.rTag = none ∨ w.m < w.e ∧ w.rTag.isSome)) ∨
    (w.lTag.isSome ∧ w.lTag ≠ some "Noun".toList ∧ w.m = w.e ∧ w.rTag = none) := by
  obtain ⟨t, h1, h2, h3, h4⟩ := h.tags
  by_cases hn : t = "Noun".toList
  · subst hn
    left
    refine ⟨h1, ?_⟩
    rcases h4 with h4 | ⟨h4, rt, _, h5, _⟩
    · exact Or.inl h4
    · exact Or.inr ⟨h4, by rw [h5]; rfl⟩
  · right
    refine ⟨by rw [h1]; rfl, by rw [h1]; simpa using hn, ?_⟩
    rcases h4 with h4 | ⟨h4, rt, h5, _⟩
    · exact h4
    · exfalso
      rw [ht, getD_one _ _ _ hn] at h5
      cases h5

/-- a matcher with the default tags and templates (`LRTemplateMatcher(dictionary)`) -/
def DefaultLR (g : LRMatcher) : Prop :=
  DReach g.dictionary ∧ (∀ l, (g.ord l).Perm l) ∧ g.ltags = ["Noun".toList, "Adjective".toList, "Verb".toList, "Adverb".toList, "Exclamation".toList] ∧
  g.templates = [("Noun".toList, ["Josa".toList, "Verb".toList, "Adjective".toList])]

/-- **C88** With default weights, tags and templates the score of a candidate is: a tenth per character; 0.3 more for a noun, 0.2 for an adverb and 0.1 for an
    adjective as L; 0.15 more if it has an R. (The penalty for an L of one character never applies: the matcher proposes none.) -/
theorem C88_default_score (g : LRMatcher) (hg : DefaultLR g) (eojeol : Str) (c : LR) (hc : c ∈ g.generate eojeol) :
    evaluateLR {} c = ((c.e - c.b : Nat) : Rat) / 10 + 3/10 * flag (c.lTag = some "Noun".toList) + 2/10 * flag (c.lTag = some "Adverb".toList) +
      1/10 * flag (c.lTag = some "Adjective".toList) + 15/100 * flag (c.r ≠ []) := by
  rw [C39_generate g hg.1 hg.2.1] at hc
  have ho := hc.order
  have hr : flag (c.lTag.isSome ∧ c.rTag.isSome) = flag (c.r ≠ []) := by
    congr 1
    apply propext
    have hne : c.r ≠ [] ↔ c.m < c.e := by
      rw [hc.right, ← List.length_pos_iff, length_slice]
      omega
    rw [hne]
    rcases default_tags g hg.2.2.2 eojeol c hc with ⟨h1, h2 | h2⟩ | h
    · rw [h2.2]; simp; omega
    · rw [h1]; simp [h2.2, h2.1]
    · rw [h.2.2.2]; simp; omega
  have h1 : flag (c.m = c.b + 1) = 0 := by unfold flag; rw [if_neg (by omega)]
  have hlen : ((c.e - c.b : Nat) : Rat) = (c.e : Rat) - c.b := Nat.cast_sub (by omega)
  rw [C88_score, hr, h1, hlen]
  have : ∀ t x, preferred ({} : LWeights).preference t x = 0 := by intro t x; cases t <;> rfl
  rw [this, this]
  simp only [List.zipWith_cons_cons, List.zipWith_nil_left, List.sum_cons, List.sum_nil]
  ring

private theorem only_one {α : Type} {R : α → α → Prop} (L : List α) (x : α) (hx : x ∈ L) (hp : L.Pairwise R) (h : ∀ y ∈ L, ¬ R x y ∧ ¬ R y x) : L = [x] := by
  obtain ⟨a, b, rfl⟩ := List.append_of_mem hx
  rw [List.pairwise_append, List.pairwise_cons] at hp
  have ha : a = [] := by
    cases a with
    | nil => rfl
    | cons z a => exact absurd (hp.2.2 z (by simp) x (by simp)) (h z (by simp)).2
  have hb : b = [] := by
    cases b with
    | nil => rfl
    | cons z b => exact absurd (hp.2.1.1 z (by simp)) (h z (by simp)).1
  rw [ha, hb]; rfl

private theorem flag_true {p : Prop} (h : p) : flag p = 1 := by unfold flag; rw [if_pos h]
private theorem flag_false {p : Prop} (h : ¬ p) : flag p = 0 := by unfold flag; rw [if_neg h]
private theorem flag_le (p : Prop) : flag p ≤ 1 := by by_cases h : p; rw [flag_true h]; rw [flag_false h]; norm_num

/-- the default score of a candidate: with an R; without; the L a noun or not -/
private theorem default_cases (g : LRMatcher) (hg : DefaultLR g) (eojeol : Str) (c : LR) (hc : c ∈ g.generate eojeol) :
    (c.lTag = some "Noun".toList ∧ c.m < c.e ∧ evaluateLR {} c = ((c.e - c.b : Nat) : Rat) / 10 + 45/100) ∨
    (c.lTag = some "Noun".toList ∧ c.m = c.e ∧ evaluateLR {} c = ((c.e - c.b : Nat) : Rat) / 10 + 30/100) ∨
    (c.lTag ≠ some "Noun".toList ∧ c.m = c.e ∧ evaluateLR {} c ≤ ((c.e - c.b : Nat) : Rat) / 10 + 20/100) := by
  have hs := C88_default_score g hg eojeol c hc
  rw [C39_generate g hg.1 hg.2.1] at hc
  have ho := hc.order
  have hne : c.r ≠ [] ↔ c.m < c.e := by
    rw [hc.right, ← List.length_pos_iff, length_slice]
    omega
  rw [hne] at hs
  rcases default_tags g hg.2.2.2 eojeol c hc with ⟨h1, h2 | h2⟩ | h
  · right; left
    refine ⟨h1, h2.1, ?_⟩
    rw [hs, h1, flag_true rfl, flag_false (by decide), flag_false (by decide), flag_false (by omega)]
    ring
  · left
    refine ⟨h1, h2.1, ?_⟩
    rw [hs, h1, flag_true rfl, flag_false (by decide), flag_false (by decide), flag_true h2.1]
    ring
  · right; right
    refine ⟨h.2.1, h.2.2.1, ?_⟩
    rw [hs, flag_false h.2.1, flag_false (p := c.m < c.e) (by omega)]
    by_cases ha : c.lTag = some "Adverb".toList
    · rw [flag_true ha, flag_false (p := c.lTag = some "Adjective".toList) (by rw [ha]; decide)]
      linarith
    · rw [flag_false ha]
      have := flag_le (c.lTag = some "Adjective".toList)
      linarith

private theorem candidate_piece (g : LRMatcher) (eojeol : Str) (c : LR) (hc : IsCandidate g eojeol c) : PieceOK g.dictionary eojeol c := by
  have ho := hc.order
  obtain ⟨t, h1, _, h3, h4⟩ := hc.tags
  refine ⟨⟨by omega, by omega, by omega⟩, hc.left, hc.right, fun u hu => ?_, fun u hu => ?_⟩
  · rw [h1] at hu; cases hu; exact h3
  · rcases h4 with h4 | ⟨_, rt, _, h5, h6⟩
    · rw [h4.2] at hu; cases hu
    · rw [h5] at hu; cases hu; exact h6

/-- a selected candidate that covers the eojeol is the only one -/
private theorem covers (g : LRMatcher) (hg : DefaultLR g) (score : LR → Rat) (eojeol : Str) (x : LR)
    (hx : x ∈ selectBestLR score (g.generate eojeol)) (hb : x.b = 0) (he : x.e = eojeol.length) : selectBestLR score (g.generate eojeol) = [x] := by
  obtain ⟨h1, h2, _⟩ := C39_selection score (g.generate eojeol)
  refine only_one _ x hx h2 (fun y hy => ?_)
  have hy' := ((C39_generate g hg.1 hg.2.1 eojeol y).1 (h1 y hy)).order
  have hx' := ((C39_generate g hg.1 hg.2.1 eojeol x).1 (h1 x hx)).order
  unfold Apart
  omega

/-- **C88** If a whole eojeol can be read as a noun (of two or more characters) followed by a josa, verb or adjective, the default tagger returns such a reading
    of the whole eojeol, two words — with exact or rounded scores (any score within a hundredth of the exact one). -/
theorem C88_noun_phrase (g : LRMatcher) (hg : DefaultLR g) (score : LR → Rat) (eojeol : Str)
    (hround : ∀ c ∈ g.generate eojeol, |score c - evaluateLR {} c| ≤ 1/100)
    (l r t : Str) (hs : eojeol = l ++ r) (hl : 2 ≤ l.length) (hr : r ≠ []) (ht : t ∈ ["Josa".toList, "Verb".toList, "Adjective".toList])
    (hdl : g.dictionary.wordIsTag l "Noun".toList = true) (hdr : g.dictionary.wordIsTag r t = true) :
    ∃ l' r' t', eojeol = l' ++ r' ∧ 2 ≤ l'.length ∧ r' ≠ [] ∧ t' ∈ ["Josa".toList, "Verb".toList, "Adjective".toList] ∧
      g.dictionary.wordIsTag l' "Noun".toList = true ∧ g.dictionary.wordIsTag r' t' = true ∧
      lrTag g score eojeol = [(l', some "Noun".toList), (r', some t')] := by
  have hn : eojeol.length = l.length + r.length := by rw [hs, List.length_append]
  have hrl : 0 < r.length := List.length_pos_iff.2 hr
  have hc0 : (⟨l, some "Noun".toList, r, some t, 0, l.length, eojeol.length⟩ : LR) ∈ g.generate eojeol := by
    rw [C39_generate g hg.1 hg.2.1]
    refine ⟨⟨by dsimp only; omega, by dsimp only; omega, Nat.le_refl _⟩, ?_, ?_, "Noun".toList, rfl, by rw [hg.2.2.1]; simp, hdl, Or.inr ⟨by dsimp only; omega, t, ?_, rfl, hdr⟩⟩
    · rw [hs]; simp [slice]
    · dsimp only; rw [hn]; unfold slice; rw [hs, List.take_of_length_le (by simp), List.drop_left' rfl]
    · rw [hg.2.2.2]
      exact ht
  obtain ⟨h1, h2, h3⟩ := C39_selection score (g.generate eojeol)
  obtain ⟨x, hx, hsc, _⟩ := h3 _ hc0
  have hxg := h1 x hx
  have hxc := (C39_generate g hg.1 hg.2.1 eojeol x).1 hxg
  have hxo := hxc.order
  have r0 := abs_le.1 (hround _ hc0)
  have r1 := abs_le.1 (hround _ hxg)
  have s0 : evaluateLR {} (⟨l, some "Noun".toList, r, some t, 0, l.length, eojeol.length⟩ : LR) = (eojeol.length : Rat) / 10 + 45/100 := by
    rcases default_cases g hg eojeol _ hc0 with h | h | h
    · simpa using h.2.2
    · exact absurd h.2.1 (by dsimp only; omega)
    · exact absurd rfl h.1
  have hle : ((x.e - x.b : Nat) : Rat) ≤ (eojeol.length : Rat) := by
    have : x.e - x.b ≤ eojeol.length := by omega
    exact_mod_cast this
  rcases default_cases g hg eojeol x hxg with h | h | h
  · have hcov : x.e - x.b = eojeol.length := by
      by_contra hne
      have : x.e - x.b + 1 ≤ eojeol.length := by omega
      have : ((x.e - x.b : Nat) : Rat) + 1 ≤ (eojeol.length : Rat) := by exact_mod_cast this
      have := h.2.2
      linarith [r0.1, r1.2]
    have hb : x.b = 0 := by omega
    have he : x.e = eojeol.length := by omega
    have hsel := covers g hg score eojeol x hx hb he
    obtain ⟨tl, e1, _, e3, e4⟩ := hxc.tags
    rw [h.1] at e1
    cases e1
    rcases e4 with e4 | ⟨e4, rt, e5, e6, e7⟩
    · omega
    · have hl0 : x.l = eojeol.take x.m := by rw [hxc.left, hb, slice_zero]
      have hr0 : x.r = eojeol.drop x.m := by rw [hxc.right, he, slice_to_end]
      refine ⟨x.l, x.r, rt, ?_, ?_, ?_, ?_, e3, e7, ?_⟩
      · rw [hl0, hr0, List.take_append_drop]
      · rw [hl0, List.length_take]; omega
      · rw [hr0]; intro h0; rw [List.drop_eq_nil_iff] at h0; omega
      · rw [hg.2.2.2] at e5; exact e5
      · unfold lrTag
        rw [hsel, postprocess_contig g.dictionary eojeol [x] (by intro w hw; rw [List.mem_singleton] at hw; subst hw; exact candidate_piece g eojeol _ hxc) ⟨hb, he⟩]
        have hlne : x.l ≠ [] := by rw [hl0]; intro h0; have := congrArg List.length h0; rw [List.length_take, List.length_nil] at this; omega
        have hrne : x.r ≠ [] := by rw [hr0]; intro h0; rw [List.drop_eq_nil_iff] at h0; omega
        simp [flattenWords, hlne, hrne, h.1, e6]
  · exfalso; have := h.2.2; linarith [r0.1, r1.2]
  · exfalso; have := h.2.2; linarith [r0.1, r1.2]

private theorem mem_post (token : Str) (ws : List LR) (w : LR) (h : w ∈ postprocess token ws) : w ∈ ws ∨ (w.lTag = none ∧ w.r = []) := by
  unfold postprocess at h
  rw [mem_sorted] at h
  have hu : ∀ a b, (unknown token a b).lTag = none ∧ (unknown token a b).r = [] := fun a b => ⟨rfl, rfl⟩
  have hi : ∀ ws : List LR, ∀ w ∈ interSubwords token ws, w.lTag = none ∧ w.r = [] := by
    intro ws
    induction ws with
    | nil => intro w hw; cases hw
    | cons a ws ih =>
      cases ws with
      | nil => intro w hw; cases hw
      | cons b ws =>
        intro w hw
        rw [interSubwords] at hw
        rcases List.mem_append.1 hw with hw | hw
        · split at hw
          · cases hw
          · rw [List.mem_singleton] at hw; subst hw; exact hu _ _
        · exact ih w hw
  rcases List.mem_append.1 h with h | h
  · exact Or.inl h
  right
  rcases List.mem_append.1 h with h | h
  · rcases List.mem_append.1 h with h | h
    · unfold firstSub at h
      split at h
      · split at h
        · rw [List.mem_singleton] at h; subst h; exact hu _ _
        · cases h
      · cases h
    · unfold lastSub at h
      split at h
      · split at h
        · rw [List.mem_singleton] at h; subst h; exact hu _ _
        · cases h
      · cases h
  · exact hi ws w h

/-- **C88** An eojeol that is itself a noun is nevertheless not tagged as one if all of it but one character (the first or the last) can be read as a noun
    followed by a josa, verb or adjective — with exact or rounded scores. -/
theorem C88_noun_loses (g : LRMatcher) (hg : DefaultLR g) (score : LR → Rat) (eojeol : Str)
    (hround : ∀ c ∈ g.generate eojeol, |score c - evaluateLR {} c| ≤ 1/100)
    (pre l r post t : Str) (hs : eojeol = pre ++ l ++ r ++ post) (h1 : (pre ++ post).length = 1)
    (hl : 2 ≤ l.length) (hr : r ≠ []) (ht : t ∈ ["Josa".toList, "Verb".toList, "Adjective".toList])
    (hdl : g.dictionary.wordIsTag l "Noun".toList = true) (hdr : g.dictionary.wordIsTag r t = true) :
    (eojeol, some "Noun".toList) ∉ lrTag g score eojeol := by
  rw [List.length_append] at h1
  have hn : eojeol.length = l.length + r.length + 1 := by rw [hs]; simp only [List.length_append]; omega
  have hrl : 0 < r.length := List.length_pos_iff.2 hr
  have hc0 : (⟨l, some "Noun".toList, r, some t, pre.length, pre.length + l.length, pre.length + l.length + r.length⟩ : LR) ∈ g.generate eojeol := by
    rw [C39_generate g hg.1 hg.2.1]
    refine ⟨⟨by dsimp only; omega, by dsimp only; omega, by dsimp only; omega⟩, ?_, ?_, "Noun".toList, rfl, by rw [hg.2.2.1]; simp, hdl, Or.inr ⟨by dsimp only; omega, t, ?_, rfl, hdr⟩⟩
    · unfold slice
      rw [hs, show pre ++ l ++ r ++ post = (pre ++ l) ++ (r ++ post) by simp, List.take_left' (by simp), List.drop_left' rfl]
    · unfold slice
      rw [hs, List.take_left' (by simp only [List.length_append]), List.drop_left' (by simp only [List.length_append])]
    · rw [hg.2.2.2]; exact ht
  intro hmem
  unfold lrTag flattenWords at hmem
  obtain ⟨x, hx, hm⟩ := List.mem_flatMap.1 hmem
  obtain ⟨g1, g2, g3⟩ := C39_selection score (g.generate eojeol)
  have hxm := mem_post _ _ _ hx
  have htag : x ∈ selectBestLR score (g.generate eojeol) := by
    rcases hxm with h | h
    · exact h
    · exfalso
      rcases List.mem_append.1 hm with hm | hm
      · split at hm
        · cases hm
        · rw [List.mem_singleton] at hm
          have := congrArg Prod.snd hm
          rw [h.1] at this
          cases this
      · rw [if_pos h.2] at hm; cases hm
  have hxc := (C39_generate g hg.1 hg.2.1 eojeol x).1 (g1 x htag)
  have hxo := hxc.order
  have hcov : x.b = 0 ∧ x.m = eojeol.length ∧ x.lTag = some "Noun".toList := by
    rcases List.mem_append.1 hm with hm | hm
    · split at hm
      · cases hm
      · rw [List.mem_singleton] at hm
        have e1 := congrArg (fun y => y.1.length) hm
        dsimp only at e1
        rw [hxc.left, length_slice] at e1
        exact ⟨by omega, by omega, (congrArg Prod.snd hm).symm⟩
    · exfalso
      split at hm
      · cases hm
      · rw [List.mem_singleton] at hm
        have e1 := congrArg (fun y => y.1.length) hm
        dsimp only at e1
        rw [hxc.right, length_slice] at e1
        omega
  have hsel := covers g hg score eojeol x htag hcov.1 (by omega)
  obtain ⟨y, hy, hsc, _⟩ := g3 _ hc0
  rw [hsel, List.mem_singleton] at hy
  subst hy
  have r0 := abs_le.1 (hround _ hc0)
  have r1 := abs_le.1 (hround _ (g1 y htag))
  have s0 : evaluateLR {} (⟨l, some "Noun".toList, r, some t, pre.length, pre.length + l.length, pre.length + l.length + r.length⟩ : LR) =
      ((l.length + r.length : Nat) : Rat) / 10 + 45/100 := by
    rcases default_cases g hg eojeol _ hc0 with h | h | h
    · rw [h.2.2]; congr 3; dsimp only; omega
    · exact absurd h.2.1 (by dsimp only; omega)
    · exact absurd rfl h.1
  rcases default_cases g hg eojeol y (g1 y htag) with h | h | h
  · omega
  · have e := h.2.2
    rw [show y.e - y.b = l.length + r.length + 1 by omega] at e
    have e2 : ((l.length + r.length + 1 : Nat) : Rat) = ((l.length + r.length : Nat) : Rat) + 1 := by push_cast; ring
    rw [e2] at e
    linarith [r0.1, r1.2]
  · exact absurd hcov.2.2 h.1

/-- a default matcher; a noun phrase is read as one -/
example : ∃ s, create [("Noun".toList, ["노래".toList, "노래방은".toList, "노래방".toList]), ("Josa".toList, ["는".toList, "방".toList])] = .ok s ∧
    DefaultLR { dictionary := s } ∧
    lrTag { dictionary := s } (evaluateLR {}) "노래는".toList = [("노래".toList, some "Noun".toList), ("는".toList, some "Josa".toList)] ∧
    s.wordIsTag "노래방은".toList "Noun".toList = true ∧
    lrTag { dictionary := s } (evaluateLR {}) "노래방은".toList = [("노래".toList, some "Noun".toList), ("방".toList, some "Josa".toList), ("은".toList, none)] :=
  ⟨_, rfl, ⟨.create [("Noun".toList, ["노래".toList, "노래방은".toList, "노래방".toList]), ("Josa".toList, ["는".toList, "방".toList])] _ (by unfold Dict.WF; decide) rfl, fun l => List.Perm.refl _, rfl, rfl⟩, by decide +kernel, by decide +kernel, by decide +kernel⟩

end Props
