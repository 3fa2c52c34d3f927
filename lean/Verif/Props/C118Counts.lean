import Verif.Props.C118
import Verif.Props.C21_C23
import Verif.Props.C33
import Verif.Props.C24_C28
import Verif.Props.C45

/-! C118 for the other counters: eojeols, L-R graph, bigrams. -/

namespace Props

open Py

theorem sum_relevant {f : Str → Nat} {M : Str → Prop} [DecidablePred M] (h : ∀ t, ¬ M t → f t = 0) {xs ys : List Str}
    (hp : (xs.filter (fun t => decide (M t))).Perm (ys.filter (fun t => decide (M t)))) : (xs.map f).sum = (ys.map f).sum := by
  have : ∀ zs : List Str, (zs.map f).sum = ((zs.filter (fun t => decide (M t))).map f).sum := by
    intro zs
    induction zs with
    | nil => rfl
    | cons z zs ih =>
      rw [List.map_cons, List.sum_cons, ih, List.filter_cons]
      by_cases hz : M z
      · rw [if_pos (by simpa using hz), List.map_cons, List.sum_cons]
      · rw [if_neg (by simpa using hz), h z hz, Nat.zero_add]
  rw [this xs, this ys]
  exact (hp.map f).sum_eq

theorem count_flatMap_sum (g : Str → List Str) (e : Str) (xs : List Str) : (xs.flatMap g).count e = (xs.map (fun t => (g t).count e)).sum := by
  induction xs with
  | nil => rfl
  | cons x xs ih => rw [List.flatMap_cons, List.count_append, ih, List.map_cons, List.sum_cons]

/-- The count of an eojeol depends only on the sentences that contain it, in any order. -/
theorem C118_eojeol (p : EC.Params) (xs ys : List Str) (hx : xs ≠ []) (hy : ys ≠ []) (hcx : NoCheckpoints p xs.length) (hcy : NoCheckpoints p ys.length) (e : Str)
    (h : (xs.filter (fun t => decide (e ∈ splitWs (p.preprocess t)))).Perm (ys.filter (fun t => decide (e ∈ splitWs (p.preprocess t))))) :
    ∃ a b, EC.construct p (some xs) = .ok a ∧ EC.construct p (some ys) = .ok b ∧ EC.getitem a e = EC.getitem b e := by
  obtain ⟨a, ha, -, ga, -⟩ := C21_exact p xs hx hcx
  obtain ⟨b, hb, -, gb, -⟩ := C21_exact p ys hy hcy
  refine ⟨a, b, ha, hb, ?_⟩
  rw [ga, gb]
  have : (eojeolsOf p.preprocess xs).count e = (eojeolsOf p.preprocess ys).count e := by
    unfold eojeolsOf
    rw [count_flatMap_sum, count_flatMap_sum]
    exact sum_relevant (M := fun t => e ∈ splitWs (p.preprocess t)) (fun t ht => List.count_eq_zero_of_not_mem ht) h
  rw [this]

/-- What an L-R graph built from sentences lists for a left part depends only on the sentences in which some word begins with it, in any order. -/
theorem C118_lrgraph (xs ys : List Str) (hx : xs ≠ []) (hy : ys ≠ []) (lMax rMax : Int) (a b : LR.State) (ha : LR.construct [] xs lMax rMax = .ok a)
    (hb : LR.construct [] ys lMax rMax = .ok b) (l : Str)
    (h : (xs.filter (fun t => decide (Begins l t))).Perm (ys.filter (fun t => decide (Begins l t)))) (r : Str) (n : Int) :
    (r, n) ∈ LR.getR a l 0 ↔ (r, n) ∈ LR.getR b l 0 := by
  have hc : (xs.flatMap splitWs).count (l ++ r) = (ys.flatMap splitWs).count (l ++ r) := by
    rw [count_flatMap_sum, count_flatMap_sum]
    exact sum_relevant (M := Begins l) (fun t ht => List.count_eq_zero_of_not_mem (fun hm => ht ⟨_, hm, List.prefix_append ..⟩)) h
  rw [C26_sents_exact xs hx lMax rMax a ha, C26_sents_exact ys hy lMax rMax b hb, ← List.count_pos_iff, ← List.count_pos_iff, hc]

/-- Whether a pair of words is reported by `extract_by_frequency`, and with which count, depends only on the sentences in which the two stand side by side, in any order. -/
theorem C118_bigram (p : BG.Params) (xs ys : List Str) (hx : p.checkpoint ≤ 0 ∨ (xs.length : Int) ≤ p.checkpoint)
    (hy : p.checkpoint ≤ 0 ∨ (ys.length : Int) ≤ p.checkpoint) (topk threshold : Int) (u v : Str)
    (h : (xs.filter (fun t => decide ([u, v] <:+: p.tokenizer t))).Perm (ys.filter (fun t => decide ([u, v] <:+: p.tokenizer t)))) :
    ∃ d d', BG.extractByFrequency (BG.train p xs).1 topk threshold = .ok d ∧ BG.extractByFrequency (BG.train p ys).1 topk threshold = .ok d' ∧
      Dict.get? d (u, v) = Dict.get? d' (u, v) := by
  obtain ⟨d, hd, gd⟩ := C33_counts p xs hx topk threshold
  obtain ⟨d', hd', gd'⟩ := C33_counts p ys hy topk threshold
  refine ⟨d, d', hd, hd', ?_⟩
  have : bigramCount p xs (u, v) = bigramCount p ys (u, v) := by
    unfold bigramCount
    refine sum_relevant (M := fun t => [u, v] <:+: p.tokenizer t) (fun t ht => ?_) h
    unfold adjacent
    rw [List.countP_eq_zero]
    intro i _ hi
    obtain ⟨h1, h2⟩ := of_decide_eq_true hi
    apply ht
    obtain ⟨l1, e1⟩ := List.getElem?_eq_some_iff.1 h1
    obtain ⟨l2, e2⟩ := List.getElem?_eq_some_iff.1 h2
    refine ⟨(p.tokenizer t).take i, (p.tokenizer t).drop (i + 2), ?_⟩
    conv_rhs => rw [← List.take_append_drop i (p.tokenizer t), List.drop_eq_getElem_cons l1, List.drop_eq_getElem_cons l2, e1, e2]
    simp
  rw [gd, gd', this]

/-- The PMI of a pair does not have this property: it grows with the number of other pairs in the corpus, also when no other sentence contains either word. -/
theorem C118_pmi_violated : ∃ (p : BG.Params) (xs ys : List Str) (u v : Str) (threshold : ℝ) (d d' : Dict (Str × Str) (Nat × ℝ)),
    xs.filter (fun t => decide (u ∈ p.tokenizer t ∨ v ∈ p.tokenizer t)) = ys.filter (fun t => decide (u ∈ p.tokenizer t ∨ v ∈ p.tokenizer t)) ∧
    BG.extractByPmi (BG.train p xs).1 threshold = .ok d ∧ BG.extractByPmi (BG.train p ys).1 threshold = .ok d' ∧
    Dict.get? d (u, v) = none ∧ (Dict.get? d' (u, v)).isSome = true := by
  have e1 : (BG.train ⟨1, false, 0, splitWs⟩ ["u v".toList]).1 = ⟨some [((['u'], ['v']), 1)], [(['u'], 1), (['v'], 1)]⟩ := by decide +kernel
  have e2 : (BG.train ⟨1, false, 0, splitWs⟩ ["u v".toList, "x y".toList]).1 =
      ⟨some [((['u'], ['v']), 1), ((['x'], ['y']), 1)], [(['u'], 1), (['v'], 1), (['x'], 1), (['y'], 1)]⟩ := by decide +kernel
  have l23 : Real.log 2 < Real.log 3 := Real.log_lt_log (by norm_num) (by norm_num)
  have l34 : Real.log 3 ≤ Real.log 4 := Real.log_le_log (by norm_num) (by norm_num)
  refine ⟨⟨1, false, 0, splitWs⟩, ["u v".toList], ["u v".toList, "x y".toList], ['u'], ['v'], Real.log 3, [], [((['u'], ['v']), (1, Real.log 4)), ((['x'], ['y']), (1, Real.log 4))],
    by decide +kernel, ?_, ?_, rfl, rfl⟩
  · rw [e1]
    simp [BG.extractByPmi, BG.scoreAll, BG.scoreWith, Dict.get?]
    intro h; linarith
  · rw [e2]
    simp [BG.extractByPmi, BG.scoreAll, BG.scoreWith, Dict.get?, Dict.set]
    rw [if_pos l34, if_pos l34]; rfl

/-- Nor has the noun score of `LRNounExtractor`: a right part is only a feature when the whole corpus contains it often enough, so sentences without the word decide
    whether it is a noun. -/
theorem C118_noun_violated : ∃ (c : Dict Str Rat) (xs ys : List Str) (w : Str) (a b : V1.State),
    xs.filter (fun t => decide (Begins w t)) = ys.filter (fun t => decide (Begins w t)) ∧
    V1.train {} { coefficient := c } xs 2 = .ok a ∧ V1.train {} { coefficient := c } ys 2 = .ok b ∧
    V1.isNoun {} a w = .ok false ∧ V1.isNoun {} b w = .ok true :=
  ⟨[("는".toList, 1), ("를".toList, 1), ("가".toList, 1)], ["학교는 학교를 학교가".toList], ["학교는 학교를 학교가".toList, "바다는 바다는 바다를 바다를".toList], "학교".toList, _, _,
    by decide +kernel, rfl, rfl, by decide +kernel, by decide +kernel⟩

example : ∃ a b, EC.construct { minCount := 1 } (some ["ab cd".toList, "xy zz".toList]) = .ok a ∧ EC.construct { minCount := 1 } (some ["gh".toList, "ab cd".toList]) = .ok b ∧
    EC.getitem a "ab".toList = EC.getitem b "ab".toList :=
  C118_eojeol { minCount := 1 } _ _ (by decide) (by decide) (.inr (.inl (by decide))) (.inr (.inl (by decide))) "ab".toList (by decide +kernel)

end Props
