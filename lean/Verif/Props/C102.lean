import Verif.Props.C94
import Verif.Props.C33
/-! C102: the order of the sentences, and of the elements of sets, does not matter. -/
set_option linter.unusedVariables false
set_option linter.unusedSimpArgs false
namespace Props
open Py Nested

section
variable {p : V1.Params} {sents sents' : List Str}

private theorem tokens_perm (h : sents.Perm sents') : (v1Tokens p sents).Perm (v1Tokens p sents') := h.flatMap_right _
private theorem blanks_perm (h : sents.Perm sents') : (v1Blanks p sents).Perm (v1Blanks p sents') := h.flatMap_right _
private theorem left_iff (h : sents.Perm sents') (m : Int) (w : Str) : LeftPart p m (v1Blanks p sents) w = LeftPart p m (v1Blanks p sents') w := by
  unfold LeftPart startCount
  rw [(blanks_perm h).countP_eq]
private theorem right_iff (h : sents.Perm sents') (m : Int) (w : Str) : RightPart p m (v1Blanks p sents) w = RightPart p m (v1Blanks p sents') w := by
  unfold RightPart endCount
  rw [(blanks_perm h).countP_eq]
private theorem splits_eq (h : sents.Perm sents') (m : Int) : SplitsAfter p m sents = SplitsAfter p m sents' := by
  funext w e
  unfold SplitsAfter
  simp only [left_iff h, right_iff h]
private theorem rights_perm (h : sents.Perm sents') (m : Int) (w : Str) : (rightsAfter p m sents w).Perm (rightsAfter p m sents' w) := by
  unfold rightsAfter
  rw [splits_eq h]
  exact ((tokens_perm h).filter _).map _
private theorem score_eq (h : sents.Perm sents') (coef : Dict Str Rat) (m : Int) : nounScoreOf p coef m sents = nounScoreOf p coef m sents' := by
  funext w
  have hr := rights_perm (p := p) h m w
  have hk : (knownAfter p coef m sents w).Perm (knownAfter p coef m sents' w) := hr.filter _
  have hu : (unknownAfter p coef m sents w).Perm (unknownAfter p coef m sents' w) := hr.filter _
  unfold nounScoreOf
  dsimp only
  rw [hr.dedup.length_eq, hk.length_eq, hu.length_eq, (hk.map _).sum_eq]
private theorem cands_eq (h : sents.Perm sents') (m : Int) (candidates : List Str) : v1Candidates p m sents candidates = v1Candidates p m sents' candidates := by
  funext w
  unfold v1Candidates
  rw [left_iff h]
private theorem reaches_eq (h : sents.Perm sents') (coef : Dict Str Rat) (m : Int) (candidates : List Str) (x : Rat) :
    Reaches p coef m sents candidates x = Reaches p coef m sents' candidates x := by
  funext w
  unfold Reaches
  rw [cands_eq h, score_eq h]
private theorem kept_eq (h : sents.Perm sents') (m : Int) : keptCount p m sents = keptCount p m sents' := by
  funext w
  unfold keptCount startCount
  rw [left_iff h, (blanks_perm h).countP_eq]
private theorem leftout_eq (h : sents.Perm sents') (coef : Dict Str Rat) (m : Int) (candidates : List Str) (x : Rat) :
    LeftOut p coef m sents candidates x = LeftOut p coef m sents' candidates x := by
  funext w
  unfold LeftOut cohesionOf
  rw [reaches_eq h, kept_eq h]
end

/-- C102: `LRNounExtractor.train_extract` on the sentences in another order, and with another order of the elements of sets: the same nouns with the same scores,
    frequencies and shares (or the same error). -/
theorem C102_v1 (p : V1.Params) (enum enum' : List Str → List Str) (henum : ∀ l, (enum l).Perm l) (henum' : ∀ l, (enum' l).Perm l) (s : V1.State)
    (sents sents' : List Str) (hp : sents.Perm sents') (minScore : Rat) (m : Int) (candidates : List Str) :
    (∃ e, V1.trainExtract p enum s sents minScore m candidates = .error e ∧ V1.trainExtract p enum' s sents' minScore m candidates = .error e) ∨
    ∃ s1 s2 res res', V1.trainExtract p enum s sents minScore m candidates = .ok (s1, res) ∧ V1.trainExtract p enum' s sents' minScore m candidates = .ok (s2, res') ∧
      res.Perm res' := by
  by_cases hne : sents = []
  · left
    have hne' : sents' = [] := by subst hne; exact List.perm_nil.1 hp.symm
    exact ⟨_, (C94_end_to_end p enum henum s sents minScore m candidates).1 hne, (C94_end_to_end p enum' henum' s sents' minScore m candidates).1 hne'⟩
  · right
    have hne' : sents' ≠ [] := fun h => hne (by subst h; exact List.perm_nil.1 hp)
    obtain ⟨s1, res, h1, _, h2, h3, h4⟩ := (C94_end_to_end p enum henum s sents minScore m candidates).2 hne
    obtain ⟨s2, res', k1, _, k2, k3, k4⟩ := (C94_end_to_end p enum' henum' s sents' minScore m candidates).2 hne'
    refine ⟨s1, s2, res, res', h1, k1, ?_⟩
    have hkeys : ∀ w, w ∈ res.map (·.1) ↔ w ∈ res'.map (·.1) := by
      intro w
      rw [h3, k3, reaches_eq hp, leftout_eq hp]
    have hval : ∀ w ns, (w, ns) ∈ res → ∀ ns', (w, ns') ∈ res' → ns = ns' := by
      classical
      intro w ns hw ns' hw'
      obtain ⟨a1, a2⟩ := h4 w ns hw
      obtain ⟨b1, b2⟩ := k4 w ns' hw'
      rw [score_eq hp] at a1
      rw [← b1, Prod.mk.injEq] at a1
      have hf : ns.frequency = ns'.frequency := by
        rw [a2, b2, splits_eq hp, (tokens_perm hp).countP_eq]
        congr 2
        funext e
        refine (@decide_eq_decide _ _ _ _).2 ?_
        simp only [hkeys]
      cases ns; cases ns'
      simp only at a1 hf ⊢
      rw [a1.1, a1.2, hf]
    rw [List.perm_ext_iff_of_nodup (List.Nodup.of_map _ h2) (List.Nodup.of_map _ k2)]
    rintro ⟨w, ns⟩
    constructor
    · intro hw
      obtain ⟨⟨w', ns'⟩, h, e⟩ := List.mem_map.1 ((hkeys w).1 (List.mem_map_of_mem hw))
      dsimp only at e; subst e
      rw [hval _ _ hw _ h]; exact h
    · intro hw
      obtain ⟨⟨w', ns'⟩, h, e⟩ := List.mem_map.1 ((hkeys w).2 (List.mem_map_of_mem hw))
      dsimp only at e; subst e
      rw [← hval _ _ h _ hw]; exact h

theorem bg_run_eq (p : BG.Params) (sents : List Str) (hcp : p.checkpoint ≤ 0 ∨ (sents.length : Int) ≤ p.checkpoint) (b : Str × Str) :
    bigramRun p sents b = if 0 < bigramCount p sents b ∧ p.minFrequency ≤ bigramCount p sents b then bigramCount p sents b else 0 := by
  obtain ⟨d, h1, h2⟩ := C33_counts p sents hcp 0 0
  obtain ⟨d', k1, k2, _⟩ := C33_filtered p sents 0 0
  rw [h1] at k1
  cases k1
  have e := (h2 b).symm.trans (k2 b)
  by_cases hr : 0 < bigramRun p sents b
  · rw [if_pos (show 0 < bigramRun p sents b ∧ (0 : Int) ≤ bigramRun p sents b from ⟨hr, by omega⟩)] at e
    by_cases hc : 0 < bigramCount p sents b ∧ p.minFrequency ≤ bigramCount p sents b
    · rw [if_pos ⟨hc.1, hc.2, by omega⟩] at e
      rw [if_pos hc]
      exact ((Prod.mk.inj (Option.some.inj e)).1).symm
    · rw [if_neg (fun h => hc ⟨h.1, h.2.1⟩)] at e
      cases e
  · rw [if_neg (show ¬ (0 < bigramRun p sents b ∧ (0 : Int) ≤ bigramRun p sents b) from fun h => hr h.1)] at e
    by_cases hc : 0 < bigramCount p sents b ∧ p.minFrequency ≤ bigramCount p sents b
    · rw [if_pos ⟨hc.1, hc.2, by omega⟩] at e
      cases e
    · rw [if_neg hc]; omega

/-- C102: `Bigram`, trained without filtering on the way: the order of the sentences does not matter to any of the scores. -/
theorem C102_bigram (p : BG.Params) (sents sents' : List Str) (hp : sents.Perm sents') (hcp : p.checkpoint ≤ 0 ∨ (sents.length : Int) ≤ p.checkpoint)
    (score : Str) (topk topk' : Int) (threshold : ℝ) :
    (∃ e, BG.extract p score (BG.train p sents).1 topk threshold = .error e ∧ BG.extract p score (BG.train p sents').1 topk' threshold = .error e) ∨
    ∃ d d', BG.extract p score (BG.train p sents).1 topk threshold = .ok d ∧ BG.extract p score (BG.train p sents').1 topk' threshold = .ok d' ∧
      ∀ b, Dict.get? d b = Dict.get? d' b := by
  have hcp' : p.checkpoint ≤ 0 ∨ (sents'.length : Int) ≤ p.checkpoint := hp.length_eq ▸ hcp
  have hcount : ∀ b, bigramCount p sents b = bigramCount p sents' b := fun b => (hp.map _).sum_eq
  have hrun : ∀ b, bigramRun p sents b = bigramRun p sents' b := fun b => by rw [bg_run_eq p sents hcp, bg_run_eq p sents' hcp', hcount]
  have hsame : ∀ c c' : Dict (Str × Str) Nat, (c.map (·.1)).Nodup → (c'.map (·.1)).Nodup →
      (∀ b, Dict.get? c b = if 0 < bigramRun p sents b then some (bigramRun p sents b) else none) →
      (∀ b, Dict.get? c' b = if 0 < bigramRun p sents' b then some (bigramRun p sents' b) else none) → c.Perm c' :=
    fun c c' h h' k k' => Dict.perm_of_get? h h' (fun b => by rw [k, k', hrun])
  obtain ⟨a1, a2, a3, a4⟩ := C33_extract p score (BG.train p sents).1 sents topk threshold
  obtain ⟨b1, b2, b3, b4⟩ := C33_extract p score (BG.train p sents').1 sents' topk' threshold
  by_cases hm : score ∈ ["frequency".toList, "pmi".toList, "mikolov".toList]
  · right
    simp only [List.mem_cons, List.not_mem_nil, or_false] at hm
    rcases hm with rfl | rfl | rfl
    · obtain ⟨d, h1, h2⟩ := a4 hcp
      obtain ⟨d', k1, k2⟩ := b4 hcp'
      refine ⟨d, d', h1, k1, fun b => ?_⟩
      apply Option.ext
      rintro ⟨n, x⟩
      rw [h2, k2, hcount]
    · obtain ⟨c, d, h1, h2, h3, h4⟩ := C33_pmi p sents threshold
      obtain ⟨c', d', k1, k2, k3, k4⟩ := C33_pmi p sents' threshold
      have hc := hsame c c' h1 k1 h2 k2
      refine ⟨d, d', a2.trans h3, b2.trans k3, fun b => ?_⟩
      apply Option.ext
      rintro ⟨n, x⟩
      rw [h4, k4, h2, k2, hrun]
      unfold bigramTypes
      rw [hc.countP_eq, hc.countP_eq, hc.countP_eq, hc.countP_eq, (hc.map _).sum_eq]
    · obtain ⟨c, d, h1, h2, h3, h4⟩ := C33_mikolov p sents threshold
      obtain ⟨c', d', k1, k2, k3, k4⟩ := C33_mikolov p sents' threshold
      have hc := hsame c c' h1 k1 h2 k2
      refine ⟨d, d', a3.trans h3, b3.trans k3, fun b => ?_⟩
      apply Option.ext
      rintro ⟨n, x⟩
      rw [h4, k4, h2, k2, hrun]
      unfold bigramTypes
      rw [hc.countP_eq, hc.countP_eq, hc.countP_eq, hc.countP_eq]
  · left
    exact ⟨_, a1 hm, b1 hm⟩

/-! ### the statements are about something: the same nouns, in another order of the table -/

private def exText : List Str := ["학교는 학교를 학교가 학교는".toList, "바다는 바다를 바다는 먹다".toList]
private def exCoef : V1.State := { coefficient := [("는".toList, 1), ("를".toList, 4/5), ("다".toList, -1)] }

example : (V1.trainExtract {} id exCoef exText (1/2) 1).toOption.map (fun x => x.2.map (fun e => (e.1, e.2.frequency, e.2.score))) =
      some [("학교".toList, 4, 14/15), ("바다".toList, 3, 14/15)] ∧
    (V1.trainExtract {} id exCoef exText.reverse (1/2) 1).toOption.map (fun x => x.2.map (fun e => (e.1, e.2.frequency, e.2.score))) =
      some [("바다".toList, 3, 14/15), ("학교".toList, 4, 14/15)] := by
  refine ⟨by decide +kernel, by decide +kernel⟩

example : let p : BG.Params := { minFrequency := 1 }
    (p.checkpoint ≤ 0 ∨ ((["가 나".toList, "다 라".toList].length : Int) ≤ p.checkpoint)) ∧
    (BG.train p ["가 나".toList, "다 라".toList]).1.counter = some [(("가".toList, "나".toList), 1), (("다".toList, "라".toList), 1)] ∧
    (BG.train p ["다 라".toList, "가 나".toList]).1.counter = some [(("다".toList, "라".toList), 1), (("가".toList, "나".toList), 1)] := by
  refine ⟨Or.inr (by decide), by decide +kernel, by decide +kernel⟩

end Props
