import Verif.Proofs.Text
import Verif.Spec.Runs
import Verif.Model.Hangle
/-! Lemmas about the repeated-character substitution. -/
namespace Hangle
open Py Spec

/-- what happens to one maximal run -/
def shorten (isWord : Char → Bool) (k n : Nat) (e : Char × Nat) : Char × Nat :=
  if isWord e.1 && e.2 ≥ k then (e.1, n) else e

theorem repeatSubGo_replicate (isWord : Char → Bool) (k n : Nat) (c : Char) (run m : Nat) (t : Str) :
    repeatSubGo isWord k n c run (List.replicate m c ++ t) = repeatSubGo isWord k n c (run + m) t := by
  induction m generalizing run with
  | zero => simp
  | succ m ih =>
    simp only [List.replicate_succ, List.cons_append, repeatSubGo, if_true]
    rw [ih]; congr 1; omega

theorem replicate_shorten (isWord : Char → Bool) (k n : Nat) (c : Char) (m : Nat) :
    List.replicate (shorten isWord k n (c, m)).2 (shorten isWord k n (c, m)).1 =
      if isWord c && m ≥ k then List.replicate n c else List.replicate m c := by
  unfold shorten; split <;> rfl

theorem expand_cons {α : Type} (e : α × Nat) (rl : List (α × Nat)) :
    expand (e :: rl) = List.replicate e.2 e.1 ++ expand rl := rfl

theorem MaximalRuns.tail {α : Type} {e : α × Nat} {rl : List (α × Nat)} (h : MaximalRuns (e :: rl)) : MaximalRuns rl := by
  cases rl with
  | nil => trivial
  | cons f rl => exact h.2.2

theorem MaximalRuns.pos {α : Type} {e : α × Nat} {rl : List (α × Nat)} (h : MaximalRuns (e :: rl)) : 0 < e.2 := by
  cases rl with
  | nil => exact h
  | cons f rl => exact h.1

theorem repeatSub_expand (isWord : Char → Bool) (k n : Nat) (rl : List (Char × Nat)) (h : MaximalRuns rl) :
    repeatSub isWord k n (expand rl) = expand (rl.map (shorten isWord k n)) := by
  induction rl with
  | nil => rfl
  | cons e rl ih =>
    obtain ⟨c, m⟩ := e
    have hm : 0 < m := MaximalRuns.pos h
    obtain ⟨m, rfl⟩ : ∃ m', m = m' + 1 := ⟨m - 1, by omega⟩
    rw [List.map_cons, expand_cons, expand_cons, replicate_shorten, List.replicate_succ, List.cons_append]
    simp only [repeatSub, repeatSubGo_replicate, Nat.zero_add]
    cases rl with
    | nil => simp [expand, repeatSubGo, List.replicate_succ]
    | cons f rl =>
      obtain ⟨d, j⟩ := f
      have hj : 0 < j := MaximalRuns.pos (MaximalRuns.tail h)
      have hd : d ≠ c := fun e => h.2.1 e.symm
      have ih := ih (MaximalRuns.tail h)
      obtain ⟨j, rfl⟩ : ∃ j', j = j' + 1 := ⟨j - 1, by omega⟩
      rw [expand_cons, List.replicate_succ, List.cons_append] at ih ⊢
      simp only [repeatSubGo, if_neg hd]
      simp only [repeatSub] at ih
      rw [ih, List.replicate_succ]

theorem exists_runs {α : Type} [DecidableEq α] (s : List α) : ∃ rl : List (α × Nat), MaximalRuns rl ∧ expand rl = s := by
  induction s with
  | nil => exact ⟨[], trivial, rfl⟩
  | cons c s ih =>
    obtain ⟨rl, h1, h2⟩ := ih
    cases rl with
    | nil => exact ⟨[(c, 1)], by simp [MaximalRuns], by rw [← h2]; simp [expand]⟩
    | cons e rl =>
      obtain ⟨d, m⟩ := e
      by_cases hc : c = d
      · subst hc
        refine ⟨(c, m + 1) :: rl, ?_, ?_⟩
        · cases rl with
          | nil => simp [MaximalRuns]
          | cons f rl => exact ⟨by simp, h1.2.1, h1.2.2⟩
        · rw [← h2, expand_cons, expand_cons, List.replicate_succ]; rfl
      · refine ⟨(c, 1) :: (d, m) :: rl, ⟨by simp, hc, h1⟩, ?_⟩
        rw [← h2, expand_cons]; rfl

theorem shorten_fst (isWord : Char → Bool) (k n : Nat) (e : Char × Nat) : (shorten isWord k n e).1 = e.1 := by
  unfold shorten; split <;> rfl

theorem shorten_pos (isWord : Char → Bool) (k n : Nat) (hn : 0 < n) (e : Char × Nat) (h : 0 < e.2) :
    0 < (shorten isWord k n e).2 := by
  unfold shorten; split
  · exact hn
  · exact h

theorem maximalRuns_shorten (isWord : Char → Bool) (k n : Nat) (hn : 0 < n) (rl : List (Char × Nat)) (h : MaximalRuns rl) :
    MaximalRuns (rl.map (shorten isWord k n)) := by
  induction rl with
  | nil => trivial
  | cons e rl ih =>
    cases rl with
    | nil => exact shorten_pos isWord k n hn e h
    | cons f rl =>
      refine ⟨shorten_pos isWord k n hn e h.1, ?_, ih h.2.2⟩
      rw [shorten_fst, shorten_fst]; exact h.2.1

theorem shorten_shorten (isWord : Char → Bool) (k n : Nat) (e : Char × Nat) :
    shorten isWord k n (shorten isWord k n e) = shorten isWord k n e := by
  unfold shorten
  by_cases h : (isWord e.1 && decide (e.2 ≥ k)) = true
  · rw [if_pos h]; split <;> rfl
  · rw [if_neg h, if_neg h]

theorem repeatSub_idem (isWord : Char → Bool) (k n : Nat) (hn : 0 < n) (s : Str) :
    repeatSub isWord k n (repeatSub isWord k n s) = repeatSub isWord k n s := by
  obtain ⟨rl, h1, rfl⟩ := exists_runs s
  rw [repeatSub_expand _ _ _ rl h1, repeatSub_expand _ _ _ _ (maximalRuns_shorten isWord k n hn rl h1), List.map_map]
  congr 1
  apply List.map_congr_left
  intro e _; exact shorten_shorten isWord k n e

theorem MaximalRuns.append_left {α : Type} {a b : List (α × Nat)} (h : MaximalRuns (a ++ b)) : MaximalRuns a := by
  induction a with
  | nil => trivial
  | cons e a ih =>
    cases a with
    | nil => exact MaximalRuns.pos h
    | cons f a => exact ⟨h.1, h.2.1, ih h.2.2⟩

theorem MaximalRuns.append_right {α : Type} {a b : List (α × Nat)} (h : MaximalRuns (a ++ b)) : MaximalRuns b := by
  induction a with
  | nil => exact h
  | cons e a ih => exact ih (MaximalRuns.tail h)

theorem expand_append {α : Type} (a b : List (α × Nat)) : expand (a ++ b) = expand a ++ expand b := by
  simp [expand]

theorem runsGo_replicate_neg (p : Char → Bool) (c : Char) (hc : p c = false) (m : Nat) (hm : 0 < m) (cur t : Str) :
    runsGo p cur (List.replicate m c ++ t) = if cur = [] then runsGo p [] t else cur :: runsGo p [] t := by
  have z : ∀ m, runsGo p [] (List.replicate m c ++ t) = runsGo p [] t := by
    intro m
    induction m with
    | zero => simp
    | succ m ih => simp [List.replicate_succ, runsGo, hc, ih]
  obtain ⟨m, rfl⟩ : ∃ m', m = m' + 1 := ⟨m - 1, by omega⟩
  simp [List.replicate_succ, runsGo, hc, z]

theorem expand_eq_nil {α : Type} {rl : List (α × Nat)} (h : MaximalRuns rl) : expand rl = [] ↔ rl = [] := by
  cases rl with
  | nil => simp [expand]
  | cons e rl =>
    have := MaximalRuns.pos h
    rw [expand_cons]; simp; omega

theorem runsGo_expand (isWord : Char → Bool) (k n : Nat) (hn : 0 < n) (p : Char → Bool) (rl0 rl : List (Char × Nat))
    (h : MaximalRuns (rl0 ++ rl)) :
    runsGo p (expand (rl0.map (shorten isWord k n))) (expand (rl.map (shorten isWord k n))) =
      (runsGo p (expand rl0) (expand rl)).map (repeatSub isWord k n) := by
  induction rl generalizing rl0 with
  | nil =>
    have h0 := MaximalRuns.append_left h
    have hs := maximalRuns_shorten isWord k n hn rl0 h0
    simp only [expand, List.map_nil, List.flatMap_nil, runsGo]
    have e1 := expand_eq_nil h0
    have e2 := expand_eq_nil hs
    simp only [expand, List.map_eq_nil_iff] at e1 e2
    by_cases hz : rl0 = []
    · subst hz; simp
    · rw [if_neg (fun x => hz (e2.1 x)), if_neg (fun x => hz (e1.1 x))]
      have := repeatSub_expand isWord k n rl0 h0
      simp only [expand] at this
      simp [this]
  | cons e rl ih =>
    obtain ⟨c, m⟩ := e
    have hm : 0 < m := MaximalRuns.pos (MaximalRuns.append_right h)
    have hm' := shorten_pos isWord k n hn (c, m) hm
    rw [List.map_cons, expand_cons, expand_cons, shorten_fst]
    by_cases hp : p c = true
    · rw [runsGo_append_of_all p _ _ _ (by intro d hd; rw [List.eq_of_mem_replicate hd]; exact hp),
        runsGo_append_of_all p _ _ _ (by intro d hd; rw [List.eq_of_mem_replicate hd]; exact hp)]
      have := ih (rl0 ++ [(c, m)]) (by simpa using h)
      rw [List.map_append, expand_append, expand_append] at this
      simp only [List.map_cons, List.map_nil, expand_cons, shorten_fst] at this
      simpa [expand] using this
    · simp only [Bool.not_eq_true] at hp
      have h0 := MaximalRuns.append_left h
      have hs := maximalRuns_shorten isWord k n hn rl0 h0
      rw [runsGo_replicate_neg p c hp _ hm', runsGo_replicate_neg p c hp _ hm]
      have ih := ih [] (MaximalRuns.tail (MaximalRuns.append_right h))
      have e0 : expand ([] : List (Char × Nat)) = [] := rfl
      simp only [List.map_nil, e0] at ih
      by_cases hz : rl0 = []
      · subst hz; simp only [List.map_nil, e0, if_true] at ih ⊢; exact ih
      · rw [if_neg (fun x => hz (List.map_eq_nil_iff.1 ((expand_eq_nil hs).1 x))), if_neg (fun x => hz ((expand_eq_nil h0).1 x))]
        rw [List.map_cons, repeatSub_expand isWord k n rl0 h0]
        rw [ih]

/-- repeat removal acts inside the maximal runs of any character class -/
theorem runs_repeatSub (isWord : Char → Bool) (k n : Nat) (hn : 0 < n) (p : Char → Bool) (s : Str) :
    runs p (repeatSub isWord k n s) = (runs p s).map (repeatSub isWord k n) := by
  obtain ⟨rl, h1, rfl⟩ := exists_runs s
  rw [repeatSub_expand _ _ _ rl h1]
  exact runsGo_expand isWord k n hn p [] rl h1

theorem mem_repeatSub (isWord : Char → Bool) (k n : Nat) (s : Str) {c : Char} (h : c ∈ repeatSub isWord k n s) : c ∈ s := by
  obtain ⟨rl, h1, rfl⟩ := exists_runs s
  rw [repeatSub_expand _ _ _ rl h1] at h
  simp only [expand, List.mem_flatMap, List.mem_map, List.mem_replicate] at h ⊢
  obtain ⟨e, ⟨f, hf, rfl⟩, hn, rfl⟩ := h
  rw [shorten_fst]
  refine ⟨f, hf, ?_, rfl⟩
  intro h0
  have hpos : ∀ rl : List (Char × Nat), MaximalRuns rl → ∀ e ∈ rl, 0 < e.2 := by
    intro rl
    induction rl with
    | nil => simp
    | cons a rl ih =>
      intro h e he
      rcases List.mem_cons.1 he with rfl | he
      · exact MaximalRuns.pos h
      · exact ih (MaximalRuns.tail h) e he
  have := hpos rl h1 f hf; omega

theorem repeatSub_ne_nil (isWord : Char → Bool) (k n : Nat) (hn : 0 < n) (s : Str) (h : s ≠ []) :
    repeatSub isWord k n s ≠ [] := by
  obtain ⟨rl, h1, rfl⟩ := exists_runs s
  rw [repeatSub_expand _ _ _ rl h1, ne_eq, expand_eq_nil (maximalRuns_shorten isWord k n hn rl h1), List.map_eq_nil_iff]
  rw [ne_eq, expand_eq_nil h1] at h; exact h

/-- a repeated character inside a text lies inside one maximal run -/
theorem replicate_infix_expand {α : Type} (rl : List (α × Nat)) (h : MaximalRuns rl) (c : α) (m : Nat)
    (hi : List.replicate (m + 1) c <:+: expand rl) : ∃ k, (c, k) ∈ rl ∧ m + 1 ≤ k := by
  induction rl with
  | nil => simp [expand] at hi
  | cons e rl ih =>
    obtain ⟨a, k⟩ := e
    rw [expand_cons] at hi
    obtain ⟨p, q, hpq⟩ := hi
    simp only at hpq
    rw [List.append_assoc, List.append_eq_append_iff] at hpq
    rcases hpq with ⟨as, h1, h2⟩ | ⟨bs, h1, h2⟩
    · -- replicate k a = p ++ as
      rw [List.append_eq_append_iff] at h2
      rcases h2 with ⟨cs, h3, h4⟩ | ⟨cs, h3, h4⟩
      · -- as = replicate (m+1) c ++ cs
        have hlen := congrArg List.length h1
        rw [h3] at hlen
        simp at hlen
        have hca : c = a := by
          have : c ∈ List.replicate k a := by rw [h1, h3]; simp
          exact List.eq_of_mem_replicate this
        subst hca
        exact ⟨k, by simp, by omega⟩
      · -- replicate (m+1) c = as ++ cs
        cases as with
        | nil =>
          have h3' : List.replicate (m + 1) c = cs := by simpa using h3
          obtain ⟨j, hj, hl⟩ := ih (MaximalRuns.tail h) ⟨[], q, by rw [h4, h3']; simp⟩
          exact ⟨j, by simp [hj], hl⟩
        | cons x as =>
          have hxa : x = a := by
            have : x ∈ List.replicate k a := by rw [h1]; simp
            exact List.eq_of_mem_replicate this
          have hxc : x = c := by
            have : x ∈ List.replicate (m + 1) c := by rw [h3]; simp
            exact List.eq_of_mem_replicate this
          subst hxa; subst hxc
          cases cs with
          | nil =>
            have hl1 := congrArg List.length h1
            have hl3 := congrArg List.length h3
            simp at hl1 hl3
            exact ⟨k, by simp, by omega⟩
          | cons y cs =>
            exfalso
            have hyc : y = x := by
              have : y ∈ List.replicate (m + 1) x := by rw [h3]; simp
              exact List.eq_of_mem_replicate this
            subst hyc
            cases rl with
            | nil => simp [expand] at h4
            | cons f rl =>
              have hf := MaximalRuns.pos (MaximalRuns.tail h)
              obtain ⟨d, j⟩ := f
              obtain ⟨j, rfl⟩ : ∃ j', j = j' + 1 := ⟨j - 1, by simp only at hf; omega⟩
              rw [expand_cons, List.replicate_succ] at h4
              simp at h4
              exact h.2.1 h4.1.symm
    · obtain ⟨j, hj, hl⟩ := ih (MaximalRuns.tail h) ⟨bs, q, by rw [h2]; simp⟩
      exact ⟨j, by simp [hj], hl⟩

end Hangle
