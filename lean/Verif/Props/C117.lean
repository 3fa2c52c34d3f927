import Mathlib.Tactic.Linarith
import Mathlib.Tactic.NormNum
import Verif.Model.TagScore

namespace Props

open Py TagScore

/-- a tag that says something: neither `None` nor the empty string -/
def Tagged (t : Option Str) : Prop := ∃ s : Str, t = some s ∧ s ≠ []

/-- the preference of a word under its tag: what the table says, 0 when the table or the tag says nothing -/
def Bonus (preference : Dict Str (Dict Str ℝ)) (tag : Option Str) (word : Str) (v : ℝ) : Prop :=
  (∃ t row, tag = some t ∧ t ≠ [] ∧ Dict.get? preference t = some row ∧ Dict.get? row word = some v) ∨
  ((¬ ∃ t row v', tag = some t ∧ t ≠ [] ∧ Dict.get? preference t = some row ∧ Dict.get? row word = some v') ∧ v = 0)

open Classical in
/-- the score of a candidate, written as a formula: `w` is the weight of each feature -/
noncomputable def linear (w : String → ℝ) (c : Cand) : ℝ :=
  w "cohesion_l" * c.cohesion + w "droprate_l" * c.droprate + w "log_count_l" * Real.log (c.lcount + 1) + w "prob_l2r" * c.lrProp +
  w "log_count_l2r" * Real.log (c.lrCount + 1) + (if Tagged c.lTag ∧ Tagged c.rTag then w "known_LR" else 0) +
  (if c.r.length = 1 then w "R_is_syllable" else 0) + w "log_length" * Real.log c.length

/-- statistics of which the logarithms exist -/
def Countable (c : Cand) : Prop := 0 ≤ c.lcount ∧ 0 ≤ c.lrCount ∧ 0 < c.length

theorem truthy_iff (t : Option Str) : truthy t = true ↔ Tagged t := by
  cases t with
  | none => simp [truthy, Tagged]
  | some t => simp [truthy, Tagged]

theorem bonus_prefer (p : Dict Str (Dict Str ℝ)) (tag : Option Str) (word : Str) : Bonus p tag word (prefer p tag word) := by
  cases tag with
  | none => exact .inr ⟨by simp, rfl⟩
  | some t =>
    unfold prefer; dsimp only
    by_cases ht : t ≠ [] ∧ t ∈ Dict.keys p
    · rw [if_pos ht]
      cases hg : Dict.get? p t with
      | none => exact .inr ⟨by rintro ⟨t', row, v', h, -, h2, -⟩; cases h; rw [hg] at h2; exact absurd h2 (by simp), by simp only [Dict.getD, hg]; rfl⟩
      | some row =>
        cases hw : Dict.get? row word with
        | none => exact .inr ⟨by rintro ⟨t', row', v', h, -, h2, h3⟩; cases h; rw [hg] at h2; cases h2; rw [hw] at h3; exact absurd h3 (by simp), by simp only [Dict.getD, hg, Option.getD_some, hw, Option.getD_none]⟩
        | some v => exact .inl ⟨t, row, rfl, ht.1, hg, by simp only [Dict.getD, hg, Option.getD_some, hw]⟩
    · rw [if_neg ht]
      refine .inr ⟨?_, rfl⟩
      rintro ⟨t', row, v', h, hne, h2, -⟩
      cases h
      exact ht ⟨hne, (Dict.isSome_get?_iff _ _).1 (by rw [h2]; rfl)⟩

theorem bonus_unique {p : Dict Str (Dict Str ℝ)} {tag : Option Str} {word : Str} {v v' : ℝ} (h : Bonus p tag word v) (h' : Bonus p tag word v') : v = v' := by
  rcases h with ⟨t, row, h1, h2, h3, h4⟩ | ⟨h, rfl⟩ <;> rcases h' with ⟨t', row', h1', h2', h3', h4'⟩ | ⟨h', rfl⟩
  · subst h1; cases h1'; rw [h3] at h3'; cases h3'; rw [h4] at h4'; cases h4'; rfl
  · exact absurd ⟨t, row, v, h1, h2, h3, h4⟩ h'
  · exact absurd ⟨t', row', v', h1', h2', h3', h4'⟩ h
  · rfl

theorem log_ok {n : Int} (h : 0 < n) : TagScore.log n = .ok (Real.log n) := by
  unfold TagScore.log; rw [if_neg (by omega)]

theorem log_bad {n : Int} (h : ¬ 0 < n) : TagScore.log n = .error .valueError := by
  unfold TagScore.log; rw [if_pos (by omega)]

theorem table_bad {c : Cand} (h : ¬ Countable c) : scoreTable c = .error .valueError := by
  unfold scoreTable
  by_cases h1 : 0 < c.lcount + 1
  · rw [log_ok h1]; dsimp only
    by_cases h2 : 0 < c.lrCount + 1
    · rw [log_ok h2]; dsimp only
      by_cases h3 : 0 < c.length
      · exact absurd ⟨by omega, by omega, h3⟩ h
      · rw [log_bad h3]
    · rw [log_bad h2]
  · rw [log_bad h1]

theorem score_bad {p : Dict Str ℝ} {q : Dict Str (Dict Str ℝ)} {c : Cand} (h : ¬ Countable c) : score p q c = .error .valueError := by
  unfold score; rw [table_bad h]

theorem score_ok {p : Dict Str ℝ} {q : Dict Str (Dict Str ℝ)} {c : Cand} (h : Countable c) :
    score p q c = .ok (c, linear (fun f => Dict.getD p f.toList 0) c + prefer q c.lTag c.l + prefer q c.rTag c.r) := by
  obtain ⟨h1, h2, h3⟩ := h
  unfold score scoreTable
  rw [log_ok (by omega), log_ok (by omega), log_ok h3]
  dsimp only
  congr 3
  congr 1
  unfold weigh linear
  simp only [List.map_cons, List.map_nil, List.sum_cons, List.sum_nil, Int.cast_add, Int.cast_one]
  by_cases hk : (truthy c.lTag && truthy c.rTag) = true
  · have hk' : Tagged c.lTag ∧ Tagged c.rTag := by rw [Bool.and_eq_true, truthy_iff, truthy_iff] at hk; exact hk
    rw [if_pos hk, if_pos hk']; split <;> ring
  · have hk' : ¬ (Tagged c.lTag ∧ Tagged c.rTag) := by rw [Bool.and_eq_true, truthy_iff, truthy_iff] at hk; exact hk
    rw [if_neg hk, if_neg hk']; split <;> ring

theorem scores_ok {p : Dict Str ℝ} {q : Dict Str (Dict Str ℝ)} : ∀ {cs : List Cand}, (∀ c ∈ cs, Countable c) →
    cs.mapM (score p q) = .ok (cs.map (fun c => (c, linear (fun f => Dict.getD p f.toList 0) c + prefer q c.lTag c.l + prefer q c.rTag c.r)))
  | [], _ => rfl
  | c :: cs, h => by
    rw [List.mapM_cons, score_ok (h c (List.mem_cons_self ..)), scores_ok (fun c' hc => h c' (List.mem_cons_of_mem _ hc))]
    rfl

theorem scores_bad {p : Dict Str ℝ} {q : Dict Str (Dict Str ℝ)} : ∀ {cs : List Cand}, (∃ c ∈ cs, ¬ Countable c) → cs.mapM (score p q) = .error .valueError
  | [], h => by simp at h
  | c :: cs, h => by
    rw [List.mapM_cons]
    by_cases hc : Countable c
    · rw [score_ok hc, scores_bad (cs := cs) (by
        obtain ⟨c', hm, hb⟩ := h
        rcases List.mem_cons.1 hm with rfl | hm
        · exact absurd hc hb
        · exact ⟨c', hm, hb⟩)]
      rfl
    · rw [score_bad hc]; rfl

open Classical in
theorem desc_total : TotalPre (fun x y : Cand × ℝ => decide (y.2 ≤ x.2)) where
  total a b := by simp only [decide_eq_true_eq]; exact le_total _ _
  trans a b c := by simp only [decide_eq_true_eq]; intro h1 h2; exact le_trans h2 h1

open Classical in
/-- Every candidate comes back exactly once with its score, which is the weighted sum of its features (a feature the profile does not name weighs 0) plus the preferences of
    its two words; the best comes first and equal scores keep the order of the candidates. -/
theorem C117_evaluate (profile : Dict Str ℝ) (candidates : List Cand) (preference : Dict Str (Dict Str ℝ)) (h : ∀ c ∈ candidates, Countable c) :
    ∃ (value : Cand → ℝ) (result : List (Cand × ℝ)), evaluate profile candidates preference = .ok result ∧
      (∀ c, ∃ a b, Bonus preference c.lTag c.l a ∧ Bonus preference c.rTag c.r b ∧ value c = linear (fun f => Dict.getD profile f.toList 0) c + a + b) ∧
      result.Perm (candidates.map (fun c => (c, value c))) ∧
      result.Pairwise (fun x y => y.2 ≤ x.2) ∧
      ∀ v, (result.filter (fun x => decide (x.2 = v))).map (·.1) = candidates.filter (fun c => decide (value c = v)) := by
  refine ⟨fun c => linear (fun f => Dict.getD profile f.toList 0) c + prefer preference c.lTag c.l + prefer preference c.rTag c.r, _,
    by unfold evaluate; rw [scores_ok h], fun c => ⟨_, _, bonus_prefer .., bonus_prefer .., rfl⟩, sorted_perm _ _, ?_, ?_⟩
  · refine (pairwise_sorted desc_total _).imp ?_
    intro a b hab
    exact of_decide_eq_true hab
  · intro v
    rw [sorted_filter (fun x : Cand × ℝ => decide (x.2 = v)) (by
      intro a b ha hb
      simp only [decide_eq_true_eq] at *
      rw [ha, hb])]
    rw [List.filter_map, List.map_map]
    simp only [Function.comp_def, List.map_id']

/-- The call fails exactly when a count is negative or a length is not positive, and then the error is a `ValueError`, however good the other candidates are. -/
theorem C117_raises (profile : Dict Str ℝ) (candidates : List Cand) (preference : Dict Str (Dict Str ℝ)) :
    (∃ e, evaluate profile candidates preference = .error e) ↔ ∃ c ∈ candidates, c.lcount < 0 ∨ c.lrCount < 0 ∨ c.length ≤ 0 := by
  have hiff : ∀ c : Cand, (c.lcount < 0 ∨ c.lrCount < 0 ∨ c.length ≤ 0) ↔ ¬ Countable c := by intro c; unfold Countable; omega
  constructor
  · rintro ⟨e, he⟩
    by_contra hn
    have hall : ∀ c ∈ candidates, Countable c := by
      intro c hc
      by_contra hb
      exact hn ⟨c, hc, (hiff c).2 hb⟩
    obtain ⟨_, r, hr, -⟩ := C117_evaluate profile candidates preference hall
    rw [hr] at he; cases he
  · rintro ⟨c, hc, hb⟩
    exact ⟨.valueError, by unfold evaluate; rw [scores_bad ⟨c, hc, (hiff c).1 hb⟩]⟩

theorem C117_error (profile : Dict Str ℝ) (candidates : List Cand) (preference : Dict Str (Dict Str ℝ)) (e : PyErr)
    (h : evaluate profile candidates preference = .error e) : e = .valueError := by
  obtain ⟨c, hc, hb⟩ := (C117_raises profile candidates preference).1 ⟨e, h⟩
  unfold evaluate at h
  rw [scores_bad ⟨c, hc, by unfold Countable; omega⟩] at h
  cases h; rfl

open Classical in
/-- An evaluator made without a profile, or with an empty one, uses the default weights. -/
theorem C117_default (c : Cand) :
    init (some []) = init none ∧ (∀ p, p ≠ [] → init (some p) = p) ∧
    linear (fun f => Dict.getD (init none) f.toList 0) c = 0.5 * c.cohesion + 0.5 * c.droprate + 0.1 * Real.log (c.lcount + 1) + 0.1 * c.lrProp +
      0.1 * Real.log (c.lrCount + 1) + (if Tagged c.lTag ∧ Tagged c.rTag then 1 else 0) - (if c.r.length = 1 then 0.1 else 0) + 0.5 * Real.log c.length := by
  refine ⟨rfl, fun p hp => by simp [init, hp], ?_⟩
  have h : ∀ f v, (f, v) ∈ defaultProfile → Dict.getD (init none) f 0 = v := by
    intro f v hm
    unfold Dict.getD
    rw [Dict.get?_of_mem (d := init none) (by unfold Dict.WF; decide +kernel) hm]
    rfl
  unfold linear
  dsimp only
  rw [h "cohesion_l".toList 0.5 (by simp [defaultProfile]), h "droprate_l".toList 0.5 (by simp [defaultProfile]),
    h "log_count_l".toList 0.1 (by simp [defaultProfile]), h "prob_l2r".toList 0.1 (by simp [defaultProfile]),
    h "log_count_l2r".toList 0.1 (by simp [defaultProfile]), h "known_LR".toList 1 (by simp [defaultProfile]),
    h "R_is_syllable".toList (-0.1) (by simp [defaultProfile]), h "log_length".toList 0.5 (by simp [defaultProfile])]
  split <;> split <;> ring

/-- A preference for tags that no candidate carries changes nothing. -/
theorem C117_no_preference (profile : Dict Str ℝ) (candidates : List Cand) (preference : Dict Str (Dict Str ℝ))
    (h : ∀ c ∈ candidates, ∀ t ∈ Dict.keys preference, c.lTag ≠ some t ∧ c.rTag ≠ some t) :
    evaluate profile candidates preference = evaluate profile candidates [] := by
  have hp : ∀ (tag : Option Str) (w : Str) (q : Dict Str (Dict Str ℝ)), (∀ t ∈ Dict.keys q, tag ≠ some t) → prefer q tag w = 0 := by
    intro tag w q hq
    cases tag with
    | none => rfl
    | some t => unfold prefer; dsimp only; rw [if_neg (fun hc => hq t hc.2 rfl)]
  have hs : ∀ cs : List Cand, (∀ c ∈ cs, ∀ t ∈ Dict.keys preference, c.lTag ≠ some t ∧ c.rTag ≠ some t) →
      cs.mapM (score profile preference) = cs.mapM (score profile []) := by
    intro cs
    induction cs with
    | nil => intro _; rfl
    | cons c cs ih =>
      intro hcs
      have hc := hcs c (List.mem_cons_self ..)
      rw [List.mapM_cons, List.mapM_cons, ih (fun c' hc' => hcs c' (List.mem_cons_of_mem _ hc'))]
      congr 1
      unfold score
      rw [hp _ _ preference (fun t ht => (hc t ht).1), hp _ _ preference (fun t ht => (hc t ht).2), hp _ _ [] (by simp [Dict.keys]), hp _ _ [] (by simp [Dict.keys])]
  unfold evaluate
  rw [hs candidates h]

/-- a candidate of two known words, and one of a single unknown syllable -/
noncomputable def twoCands : List Cand :=
  [⟨"ab".toList, none, "c".toList, none, 3, 0, 0, 0, 0, 0⟩, ⟨"ab".toList, some "Noun".toList, [], some "Josa".toList, 2, 0, 5, 0, 0, 7⟩]

example : ∀ c ∈ twoCands, Countable c := by
  intro c hc
  simp only [twoCands, List.mem_cons, List.not_mem_nil, or_false] at hc
  rcases hc with rfl | rfl <;> exact ⟨by decide, by decide, by decide⟩

example : ∃ e, evaluate (init none) (⟨"ab".toList, none, [], none, 0, 0, 0, 0, 0, 0⟩ :: twoCands) [] = .error e :=
  (C117_raises ..).2 ⟨_, List.mem_cons_self .., .inr (.inr (by decide))⟩

example : Bonus [("Noun".toList, [("ab".toList, 2)])] (some "Noun".toList) "ab".toList 2 :=
  .inl ⟨_, [("ab".toList, 2)], rfl, by decide, by rfl, by rfl⟩

end Props
