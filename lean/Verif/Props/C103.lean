import Verif.Props.C21_C23
import Verif.Props.C33
import Verif.Props.C34_C36
import Verif.Props.C53
import Verif.Props.C67
import Verif.Props.C94
/-! C103: what raising a threshold does. -/
set_option linter.unusedVariables false
set_option linter.unusedSimpArgs false
namespace Props
open Py

/-- C103: `EojeolCounter` with a higher `min_count` keeps exactly the eojeols that reach it, with the same counts. -/
theorem C103_eojeols (p p' : EC.Params) (h1 : p'.maxLength = p.maxLength) (h2 : p'.preprocess = p.preprocess) (hm : p.minCount ≤ p'.minCount) (sents : List Str) (hne : sents ≠ [])
    (hno : NoCheckpoints p sents.length) (hno' : NoCheckpoints p' sents.length) :
    ∃ s s', EC.construct p (some sents) = .ok s ∧ EC.construct p' (some sents) = .ok s' ∧ ∀ e c, (e, c) ∈ s'.counter ↔ (e, c) ∈ s.counter ∧ p'.minCount ≤ c := by
  obtain ⟨s, a1, _, _, a2⟩ := C21_exact p sents hne hno
  obtain ⟨s', b1, _, _, b2⟩ := C21_exact p' sents hne hno'
  refine ⟨s, s', a1, b1, fun e c => ?_⟩
  rw [a2, b2, h1, h2]
  constructor
  · rintro ⟨x, y, z, w⟩; exact ⟨⟨x, y, z, by omega⟩, w⟩
  · rintro ⟨⟨x, y, z, _⟩, w⟩; exact ⟨x, y, z, w⟩

/-- the cuts `c'` are at least as strict as `c` -/
structure Stricter (c c' : WX.Cuts) : Prop where
  freq : c.minFrequency ≤ c'.minFrequency
  forward : c.minCohesionForward ≤ c'.minCohesionForward
  backward : c.minCohesionBackward ≤ c'.minCohesionBackward
  leftBE : c.minLeftBE ≤ c'.minLeftBE
  rightBE : c.minRightBE ≤ c'.minRightBE
  leftAV : c.minLeftAV ≤ c'.minLeftAV
  rightAV : c.minRightAV ≤ c'.minRightAV

theorem Stricter.passes {c c' : WX.Cuts} (h : Stricter c c') {w : Str} {sc : WX.Scores} (hp : Passes c' w sc) : Passes c w sc :=
  ⟨h.leftBE.trans hp.leftBE, h.rightBE.trans hp.rightBE, h.leftAV.trans hp.leftAV, h.rightAV.trans hp.rightAV,
    hp.freq.imp h.freq.trans h.freq.trans, fun hl => ⟨h.forward.trans (hp.cohesion hl).1, h.backward.trans (hp.cohesion hl).2⟩⟩

/-- C103: `WordExtractor.extract` with stricter thresholds, on the same scores. If the looser extraction does not remove subwords, every word of the stricter one is found by it with the
    same scores. If both remove them (with the same `max_droprate`), a word that only the stricter one finds has an extension by one character that passes the looser thresholds
    and fails the stricter ones. -/
theorem C103_words (c c' : WX.Cuts) (h : Stricter c c') (L : Dict Str Nat) (scores : Dict Str WX.Scores) (wf : scores.WF) (hne : ∀ e ∈ scores, e.1 ≠ []) (w : Str) (sc : WX.Scores)
    (hw : Dict.get? (WX.extract c' L scores) w = some sc) :
    (c.removeSubwords = false → Dict.get? (WX.extract c L scores) w = some sc) ∧
    (c'.removeSubwords = true → c'.maxDroprate = c.maxDroprate → Dict.get? (WX.extract c L scores) w = some sc ∨
      ∃ ch sc', (w ++ [ch], sc') ∈ scores ∧ Passes c (w ++ [ch]) sc' ∧ ¬ Passes c' (w ++ [ch]) sc') := by
  rw [C53_extract c' L scores wf hne] at hw
  obtain ⟨h1, h2, h3⟩ := hw
  rw [C53_extract c L scores wf hne]
  constructor
  · intro hr
    refine ⟨h1, h.passes h2, fun h4 => ?_⟩
    rw [hr] at h4; exact absurd h4.1 (by simp)
  · intro hr hd
    by_cases hx : c.removeSubwords = true ∧ ∃ e ∈ scores, e.1.dropLast = w ∧ Passes c e.1 e.2 ∧ Absorbs c L e.1 e.2
    · right
      obtain ⟨_, ⟨e, sc'⟩, he, hl, hp, ha⟩ := hx
      have hee : e = w ++ [e.getLast (hne _ he)] := by rw [← hl]; exact (List.dropLast_append_getLast _).symm
      refine ⟨e.getLast (hne _ he), sc', hee ▸ he, hee ▸ hp, fun hp' => h3 ⟨hr, ⟨e, sc'⟩, he, hl, ?_, ?_⟩⟩
      · rw [← hee] at hp'; exact hp'
      · unfold Absorbs at ha ⊢
        rw [hd]; exact ha
    · exact Or.inl ⟨h1, h.passes h2, hx⟩

/-- C103: `Bigram.extract` with a higher threshold returns exactly the bigrams whose score reaches it, for each of the three scores (trained without filtering on the way for 'frequency'). -/
theorem C103_bigram (p : BG.Params) (sents : List Str) (hcp : p.checkpoint ≤ 0 ∨ (sents.length : Int) ≤ p.checkpoint) (score : Str)
    (hs : score ∈ ["frequency".toList, "pmi".toList, "mikolov".toList]) (topk topk' : Int) (x y : ℝ) (hxy : x ≤ y) :
    ∃ d d', BG.extract p score (BG.train p sents).1 topk x = .ok d ∧ BG.extract p score (BG.train p sents).1 topk' y = .ok d' ∧
      ∀ b n v, Dict.get? d' b = some (n, v) ↔ Dict.get? d b = some (n, v) ∧ y ≤ v := by
  obtain ⟨_, a2, a3, a4⟩ := C33_extract p score (BG.train p sents).1 sents topk x
  obtain ⟨_, b2, b3, b4⟩ := C33_extract p score (BG.train p sents).1 sents topk' y
  simp only [List.mem_cons, List.not_mem_nil, or_false] at hs
  rcases hs with rfl | rfl | rfl
  · obtain ⟨d, h1, h2⟩ := a4 hcp
    obtain ⟨d', k1, k2⟩ := b4 hcp
    refine ⟨d, d', h1, k1, fun b n v => ?_⟩
    rw [h2, k2]
    constructor
    · rintro ⟨e1, e2, e3, e4, e5⟩; exact ⟨⟨e1, e2, e3, e4, hxy.trans e5⟩, by rw [e2]; exact e5⟩
    · rintro ⟨⟨e1, e2, e3, e4, e5⟩, e6⟩; exact ⟨e1, e2, e3, e4, by rw [e2] at e6; exact e6⟩
  · obtain ⟨c, d, h1, h2, h3, h4⟩ := C33_pmi p sents x
    obtain ⟨c', d', k1, k2, k3, k4⟩ := C33_pmi p sents y
    have hc : c.Perm c' := Dict.perm_of_get? h1 k1 (fun b => by rw [h2, k2])
    refine ⟨d, d', a2.trans h3, b2.trans k3, fun b n v => ?_⟩
    have ht : ∀ z, bigramTypes c z = bigramTypes c' z := fun z => by unfold bigramTypes; rw [hc.countP_eq, hc.countP_eq]
    rw [h4, k4, ht, ht, (hc.map _).sum_eq, h2, k2]
    constructor
    · rintro ⟨e1, e2, e3⟩; exact ⟨⟨e1, e2, hxy.trans e3⟩, e3⟩
    · rintro ⟨⟨e1, e2, _⟩, e3⟩; exact ⟨e1, e2, e3⟩
  · obtain ⟨c, d, h1, h2, h3, h4⟩ := C33_mikolov p sents x
    obtain ⟨c', d', k1, k2, k3, k4⟩ := C33_mikolov p sents y
    have hc : c.Perm c' := Dict.perm_of_get? h1 k1 (fun b => by rw [h2, k2])
    refine ⟨d, d', a3.trans h3, b3.trans k3, fun b n v => ?_⟩
    have ht : ∀ z, bigramTypes c z = bigramTypes c' z := fun z => by unfold bigramTypes; rw [hc.countP_eq, hc.countP_eq]
    rw [h4, k4, ht, ht, h2, k2]
    constructor
    · rintro ⟨e1, e2, e3⟩; exact ⟨⟨e1, e2, hxy.trans e3⟩, e3⟩
    · rintro ⟨⟨e1, e2, _⟩, e3⟩; exact ⟨e1, e2, e3⟩

/-- C103: `pmi` with a higher `min_pmi` keeps exactly the entries that reach it. -/
theorem C103_pmi (X : Pmi.Csr) (h : CountMatrix X) (hne : X.entries ≠ []) (py : Option (Nat → ℝ)) (hpy : ∀ q ∈ py, ∀ j < X.cols, 0 ≤ q j)
    (x y α β : ℝ) (hxy : x ≤ y) (hα : 0 ≤ α) (hβ : 0 < β ∧ β ≤ 1) :
    ∃ R R' a b, Pmi.pmi X (py.map (fun q => (List.range X.cols).map q)) x α β = .ok (R, a, b) ∧ Pmi.pmi X (py.map (fun q => (List.range X.cols).map q)) y α β = .ok (R', a, b) ∧
      ∀ i j v, (i, j, v) ∈ R'.entries ↔ (i, j, v) ∈ R.entries ∧ y ≤ v := by
  obtain ⟨R, h1, _, _, _, h2⟩ := C67_pmi X h hne py hpy x α β hα hβ
  obtain ⟨R', k1, _, _, _, k2⟩ := C67_pmi X h hne py hpy y α β hα hβ
  refine ⟨R, R', _, _, h1, k1, fun i j v => ?_⟩
  rw [h2, k2]
  constructor
  · rintro ⟨a, b, c, d, e, f⟩; exact ⟨⟨a, b, c, d, hxy.trans e, f⟩, f ▸ e⟩
  · rintro ⟨⟨a, b, c, d, _, f⟩, e⟩; exact ⟨a, b, c, d, f ▸ e, f⟩

/-- C103: `BaseVectorizer.fit` with narrower ranges: the terms are among those of the wider ranges. -/
theorem C103_vectorizer (p p' : VZ.Params) (ht : p'.tokenizer = p.tokenizer) (h1 : p.minTf ≤ p'.minTf) (h2 : p'.maxTf ≤ p.maxTf) (h3 : p.minDf ≤ p'.minDf) (h4 : p'.maxDf ≤ p.maxDf)
    (docs : List Str) (s s' : VZ.State) (h : VZ.fit p docs = .ok s) (h' : VZ.fit p' docs = .ok s') : ∀ t ∈ s'.idx2vocab, t ∈ s.idx2vocab := by
  intro t hw
  have hd : docFreq p' docs t = docFreq p docs t := by unfold docFreq; rw [ht]
  rw [(C34_selection p' docs s' h').1, hd] at hw
  rw [(C34_selection p docs s h).1]
  obtain ⟨a, b, c, d, e⟩ := hw
  have e1 : ⌊(docs.length : Rat) * p.minDf⌋ ≤ ⌊(docs.length : Rat) * p'.minDf⌋ := Int.floor_le_floor (mul_le_mul_of_nonneg_left h3 (by positivity))
  have e2 : ⌊(docs.length : Rat) * p'.maxDf⌋ ≤ ⌊(docs.length : Rat) * p.maxDf⌋ := Int.floor_le_floor (mul_le_mul_of_nonneg_left h4 (by positivity))
  exact ⟨a, by omega, by omega, by omega, by omega⟩

/-- C103: `LRNounExtractor.train_extract` with a higher `minimum_noun_score`: a word found only by the stricter extraction is of the form noun and right part, where the noun reaches the lower
    threshold and the right part's coefficient exceeds it, but one of them fails the higher one. -/
theorem C103_v1 (p : V1.Params) (enum enum' : List Str → List Str) (henum : ∀ l, (enum l).Perm l) (henum' : ∀ l, (enum' l).Perm l) (s : V1.State) (sents : List Str) (hne : sents ≠ [])
    (x y : Rat) (hxy : x ≤ y) (m : Int) (candidates : List Str) :
    ∃ s1 s2 res res', V1.trainExtract p enum s sents x m candidates = .ok (s1, res) ∧ V1.trainExtract p enum' s sents y m candidates = .ok (s2, res') ∧
      ∀ w, w ∈ res'.map (·.1) → w ∈ res.map (·.1) ∨
        ∃ l r, w = l ++ r ∧ 2 ≤ l.length ∧ r ≠ [] ∧ x ≤ (nounScoreOf p s.coefficient m sents l).1 ∧ x < Dict.getD s.coefficient r 0 ∧
          ((nounScoreOf p s.coefficient m sents l).1 < y ∨ Dict.getD s.coefficient r 0 ≤ y) := by
  obtain ⟨s1, res, h1, _, _, h3, _⟩ := (C94_end_to_end p enum henum s sents x m candidates).2 hne
  obtain ⟨s2, res', k1, _, _, k3, _⟩ := (C94_end_to_end p enum' henum' s sents y m candidates).2 hne
  refine ⟨s1, s2, res, res', h1, k1, fun w hw => ?_⟩
  rw [k3] at hw
  rw [h3]
  obtain ⟨⟨a1, a2, a3⟩, a4⟩ := hw
  by_cases hl : LeftOut p s.coefficient m sents candidates x w
  · right
    rcases hl with hl | hl | ⟨b1, b2, l, r, b3, b4, b5, ⟨c1, c2, c3⟩, b7⟩
    · exact absurd (Or.inl hl) a4
    · exact absurd (Or.inr (Or.inl hl)) a4
    · refine ⟨l, r, b3, b4, b5, c3, b7, ?_⟩
      by_contra hcon
      rw [not_or, not_lt, not_le] at hcon
      exact a4 (Or.inr (Or.inr ⟨b1, b2, l, r, b3, b4, b5, ⟨c1, c2, hcon.1⟩, hcon.2⟩))
  · exact Or.inl ⟨⟨a1, a2, hxy.trans a3⟩, hl⟩

/-! ### findings -/

private def exCoef : V1.State := { coefficient := [("는".toList, 1), ("를".toList, 4/5), ("다".toList, -1), ("가".toList, 1/2), ("도".toList, 1)] }
private def exText : List Str := ["학교가 학교가 학교가 학교가 학교를 학교도는 학교도는 학교도를".toList]

/-- C103, finding: with `minimum_noun_score=0.5` 학교도 (학교 and the particle 도) is left out; with 0.9 it is the only noun. -/
theorem C103_v1_violation :
    (V1.trainExtract {} id exCoef exText (1/2) 1).toOption.map (fun x => x.2.map (fun e => (e.1, e.2.score))) = some [("학교".toList, 14/25)] ∧
    (V1.trainExtract {} id exCoef exText (9/10) 1).toOption.map (fun x => x.2.map (fun e => (e.1, e.2.score))) = some [("학교도".toList, 14/15)] := by
  refine ⟨by decide +kernel, by decide +kernel⟩

/-- C103, finding: with `remove_subwords` a higher threshold can add a word: 가나 is absorbed by 가나다, and is found when 가나다 fails the higher threshold. -/
theorem C103_words_violation :
    ∃ (c c' : WX.Cuts) (L : Dict Str Nat) (scores : Dict Str WX.Scores) (w : Str), Stricter c c' ∧ c.removeSubwords = true ∧ c'.removeSubwords = true ∧ scores.WF ∧
      Dict.get? (WX.extract c L scores) w = none ∧ Dict.get? (WX.extract c' L scores) w ≠ none := by
  let sc : Nat → WX.Scores := fun k => ⟨1, 1, 1, 1, k, k, 10, 10⟩
  let scores : Dict Str WX.Scores := [("가나".toList, sc 2), ("가나다".toList, sc 1)]
  have wf : Dict.WF scores := by unfold Dict.WF; simp [scores, Dict.keys]
  have hne : ∀ e ∈ scores, e.1 ≠ [] := by simp [scores]
  refine ⟨{ removeSubwords := true }, { removeSubwords := true, minRightAV := 2 }, [("가나".toList, 10)], scores, "가나".toList,
    ⟨le_refl _, le_refl _, le_refl _, le_refl _, le_refl _, le_refl _, by show (0 : Int) ≤ 2; omega⟩, rfl, rfl, wf, ?_, ?_⟩
  · rw [Option.eq_none_iff_forall_ne_some]
    intro x hx
    rw [C53_extract _ _ _ wf hne] at hx
    refine hx.2.2 ⟨rfl, ("가나다".toList, sc 1), by simp [scores], by decide, ?_, ?_⟩
    · constructor <;> simp [sc]
      norm_num
    · show ({ removeSubwords := true } : WX.Cuts).maxDroprate < ((10 : Nat) : ℝ) / ((10 : Nat) : ℝ)
      norm_num
  · have : Dict.get? (WX.extract { removeSubwords := true, minRightAV := 2 } [("가나".toList, 10)] scores) "가나".toList = some (sc 2) := by
      rw [C53_extract _ _ _ wf hne]
      refine ⟨by simp [scores, Dict.get?], ?_, ?_⟩
      · constructor <;> simp [sc]
        norm_num
      · rintro ⟨_, e, he, hd, hp, _⟩
        simp only [scores, List.mem_cons, List.not_mem_nil, or_false] at he
        rcases he with rfl | rfl
        · revert hd; decide
        · have := hp.rightAV
          simp [sc] at this
    rw [this]; simp

/-! ### the hypotheses are met -/

example : NoCheckpoints { minCount := 1 } 3 ∧ NoCheckpoints { minCount := 2 } 3 ∧
    (match EC.construct { minCount := 2 } (some ["가 나".toList, "가".toList]) with | .ok s => s.counter | .error _ => []) = [("가".toList, 2)] := by
  refine ⟨Or.inl (by decide), Or.inl (by decide), by decide +kernel⟩
example : Stricter {} { minFrequency := 10, minLeftAV := 2 } :=
  ⟨by show (5 : Int) ≤ 10; omega, le_refl _, le_refl _, le_refl _, le_refl _, by show (0 : Int) ≤ 2; omega, le_refl _⟩

end Props
