import Verif.Props.C45
import Verif.Props.C46
/-! C94: `LRNounExtractor` (v1) from the sentences to the result: `train_extract` in terms of the eojeols of the corpus. -/
namespace Props
open Py Nested V1

/-- what follows `w` in the eojeols that split after it into known parts, one entry for each eojeol (whole eojeols left out) -/
noncomputable def rightsAfter (p : V1.Params) (m : Int) (sents : List Str) (w : Str) : List Str :=
  open Classical in ((v1Tokens p sents).filter (fun e => decide (SplitsAfter p m sents w e ∧ e ≠ w))).map (fun e => e.drop w.length)

/-- the right parts with a coefficient that no longer reading makes doubtful -/
noncomputable def knownAfter (p : V1.Params) (coef : Dict Str Rat) (m : Int) (sents : List Str) (w : Str) : List Str :=
  open Classical in (rightsAfter p m sents w).filter (fun r => decide (KnownPart coef w r))

/-- the right parts without a coefficient -/
noncomputable def unknownAfter (p : V1.Params) (coef : Dict Str Rat) (m : Int) (sents : List Str) (w : Str) : List Str :=
  open Classical in (rightsAfter p m sents w).filter (fun r => decide (r ∉ Dict.keys coef))

/-- the score of a word: with more than `min_num_of_features` different right parts, the mean coefficient over the eojeols with a known right part and the share of
    these among those with a known or an unknown one (0 for the mean, and the share, of nothing); otherwise 0 and 0 -/
noncomputable def nounScoreOf (p : V1.Params) (coef : Dict Str Rat) (m : Int) (sents : List Str) (w : Str) : Rat × Rat :=
  if p.minNumOfFeatures < ((rightsAfter p m sents w).dedup.length : Int) then
    let k := knownAfter p coef m sents w
    let u := unknownAfter p coef m sents w
    ((k.map (fun r => Dict.getD coef r 0)).sum / (k.length : Rat), (k.length : Rat) / ((k.length + u.length : Nat) : Rat))
  else (0, 0)

/-- the words whose score reaches the threshold -/
def Reaches (p : V1.Params) (coef : Dict Str Rat) (m : Int) (sents candidates : List Str) (minScore : Rat) (w : Str) : Prop :=
  v1Candidates p m sents candidates w ∧ 2 ≤ w.length ∧ minScore ≤ (nounScoreOf p coef m sents w).1

/-- the reasons for which such a word is left out -/
def LeftOut (p : V1.Params) (coef : Dict Str Rat) (m : Int) (sents candidates : List Str) (minScore : Rat) (w : Str) : Prop :=
  w.getLast? = some '.' ∨ w.getLast? = some ',' ∨
  (3 ≤ w.length ∧ cohesionOf p m sents w < cohesionOf p m sents w.dropLast ∧
    ∃ l r, w = l ++ r ∧ 2 ≤ l.length ∧ r ≠ [] ∧ Reaches p coef m sents candidates minScore l ∧ minScore < Dict.getD coef r 0)

/-! ### a counted list -/

private theorem sum_indicator (K : List Str) (hK : K.Nodup) (x : Str) (f : Str → Rat) :
    (K.map (fun k => if x = k then f k else 0)).sum = if x ∈ K then f x else 0 := by
  induction K with
  | nil => simp
  | cons k K ih =>
    obtain ⟨h1, h2⟩ := List.nodup_cons.1 hK
    rw [List.map_cons, List.sum_cons, ih h2]
    by_cases hx : x = k
    · subst hx; rw [if_pos rfl, if_neg h1, if_pos (by simp), Rat.add_zero]
    · rw [if_neg hx, Rat.zero_add]
      simp only [List.mem_cons, hx, false_or]

/-- summing over a list is summing over its counted form -/
private theorem sum_counted (L : List Str) (K : List Str) (hK : K.Nodup) (hsub : ∀ x ∈ L, x ∈ K) (f : Str → Rat) :
    (K.map (fun k => ((L.countP (fun t => decide (t = k)) : Nat) : Rat) * f k)).sum = (L.map f).sum := by
  induction L with
  | nil => simp
  | cons x L ih =>
    rw [List.map_cons, List.sum_cons, ← ih (fun y hy => hsub y (List.mem_cons_of_mem _ hy))]
    have : (K.map (fun k => (((x :: L).countP (fun t => decide (t = k)) : Nat) : Rat) * f k)) =
        K.map (fun k => (if x = k then f k else 0) + ((L.countP (fun t => decide (t = k)) : Nat) : Rat) * f k) := by
      apply List.map_congr_left
      intro k _
      rw [List.countP_cons]
      by_cases hx : x = k
      · subst hx; simp; ring
      · simp [hx]
    rw [this, List.sum_map_add, sum_indicator K hK x f, if_pos (hsub x (List.mem_cons_self ..))]

section
variable {p : V1.Params} {m : Int} {sents : List Str} {g : LR.State}

private theorem mem_after {w r : Str} : r ∈ rightsAfter p m sents w ↔ r ≠ [] ∧ w ++ r ∈ v1Tokens p sents ∧
    LeftPart p m (v1Blanks p sents) w ∧ RightPart p m (v1Blanks p sents) r := by
  classical
  unfold rightsAfter
  rw [List.mem_map]
  constructor
  · rintro ⟨e, he, rfl⟩
    obtain ⟨h1, h2⟩ := List.mem_filter.1 he
    obtain ⟨⟨r, rfl, h3, h4⟩, h5⟩ := of_decide_eq_true h2
    rw [List.drop_left]
    exact ⟨fun h => h5 (by rw [h, List.append_nil]), h1, h3, h4⟩
  · rintro ⟨h1, h2, h3, h4⟩
    refine ⟨w ++ r, List.mem_filter.2 ⟨h2, decide_eq_true ⟨⟨r, rfl, h3, h4⟩, ?_⟩⟩, List.drop_left⟩
    intro h
    exact h1 (by simpa using h)

private theorem count_after {w r : Str} (h : r ∈ rightsAfter p m sents w) :
    (rightsAfter p m sents w).countP (fun t => decide (t = r)) = (v1Tokens p sents).countP (fun t => decide (t = w ++ r)) := by
  classical
  obtain ⟨h1, h2, h3, h4⟩ := mem_after.1 h
  unfold rightsAfter
  rw [List.countP_map, List.countP_filter]
  apply List.countP_congr
  intro e _
  simp only [Function.comp_apply, Bool.and_eq_true, decide_eq_true_eq]
  constructor
  · rintro ⟨e1, ⟨r', rfl, _, _⟩, _⟩
    rw [List.drop_left] at e1; rw [e1]
  · rintro rfl
    refine ⟨List.drop_left, ⟨r, rfl, h3, h4⟩, ?_⟩
    intro h
    exact h1 (by simpa using h)

private theorem mem_row (hi : LR.Inv g) (hlr : g.lr = buildLrgraph p sents (Dict.keys (scanVocabulary p sents m).1) (scanVocabulary p sents m).2)
    {w r : Str} {n : Int} : (r, n) ∈ rFeatures g w ↔ r ∈ rightsAfter p m sents w ∧
      n = ((rightsAfter p m sents w).countP (fun t => decide (t = r)) : Nat) := by
  unfold rFeatures
  rw [List.mem_filter, LR.mem_getR_all hi, hlr, get2_build, v1_graph_eq, v1_mem_left, v1_mem_right]
  constructor
  · rintro ⟨⟨⟨_, _, h1, h2⟩, h3, h4⟩, h5⟩
    have hr : r ∈ rightsAfter p m sents w := mem_after.2 ⟨by simpa using h5, h3, h1, h2⟩
    exact ⟨hr, by rw [count_after hr]; exact h4⟩
  · rintro ⟨h1, h2⟩
    obtain ⟨a, b, c, d⟩ := mem_after.1 h1
    exact ⟨⟨⟨c.1, c.2.1, c, d⟩, b, by rw [h2, count_after h1]⟩, by simpa using a⟩

private theorem row_nodup (hi : LR.Inv g) (w : Str) : ((rFeatures g w).map (·.1)).Nodup :=
  (LR.getR_all_nodup hi w).sublist (List.filter_sublist.map _)

private theorem row_keys (hi : LR.Inv g) (hlr : g.lr = buildLrgraph p sents (Dict.keys (scanVocabulary p sents m).1) (scanVocabulary p sents m).2)
    (w r : Str) : r ∈ (rFeatures g w).map (·.1) ↔ r ∈ rightsAfter p m sents w := by
  rw [List.mem_map]
  constructor
  · rintro ⟨⟨r', n⟩, h, rfl⟩; exact ((mem_row hi hlr).1 h).1
  · intro h; exact ⟨(r, _), (mem_row hi hlr).2 ⟨h, rfl⟩, rfl⟩

/-- the sum over the stored row is the sum over the eojeols -/
private theorem row_sum (hi : LR.Inv g) (hlr : g.lr = buildLrgraph p sents (Dict.keys (scanVocabulary p sents m).1) (scanVocabulary p sents m).2)
    (w : Str) (f : Str → Rat) : ((rFeatures g w).map (fun rc => (rc.2 : Rat) * f rc.1)).sum = ((rightsAfter p m sents w).map f).sum := by
  rw [← sum_counted (rightsAfter p m sents w) ((rFeatures g w).map (·.1)) (row_nodup hi w) (fun x hx => (row_keys hi hlr w x).2 hx) f, List.map_map]
  congr 1
  apply List.map_congr_left
  rintro ⟨r, n⟩ h
  have := ((mem_row hi hlr).1 h).2
  simp only [Function.comp_apply]
  rw [this]
  push_cast
  rfl

private theorem sum_filter_ite (l : List (Str × Int)) (P : Str → Prop) [DecidablePred P] (h : Str × Int → Rat) :
    ((l.filter (fun rc => decide (P rc.1))).map h).sum = (l.map (fun rc => if P rc.1 then h rc else 0)).sum := by
  induction l with
  | nil => rfl
  | cons a l ih =>
    by_cases hp : P a.1
    · rw [List.filter_cons_of_pos (p := fun rc : Str × Int => decide (P rc.1)) (by simpa using hp), List.map_cons, List.map_cons, List.sum_cons, List.sum_cons, ih, if_pos hp]
    · rw [List.filter_cons_of_neg (p := fun rc : Str × Int => decide (P rc.1)) (by simpa using hp), List.map_cons, List.sum_cons, ih, if_neg hp, Rat.zero_add]

private theorem sum_filter_ite' (l : List Str) (P : Str → Prop) [DecidablePred P] (h : Str → Rat) :
    ((l.filter (fun r => decide (P r))).map h).sum = (l.map (fun r => if P r then h r else 0)).sum := by
  induction l with
  | nil => rfl
  | cons a l ih =>
    by_cases hp : P a
    · rw [List.filter_cons_of_pos (p := fun r : Str => decide (P r)) (by simpa using hp), List.map_cons, List.map_cons, List.sum_cons, List.sum_cons, ih, if_pos hp]
    · rw [List.filter_cons_of_neg (p := fun r : Str => decide (P r)) (by simpa using hp), List.map_cons, List.sum_cons, ih, if_neg hp, Rat.zero_add]

private theorem sum_one (l : List Str) : (l.map (fun _ => (1 : Rat))).sum = (l.length : Rat) := by
  induction l with
  | nil => simp
  | cons a l ih => rw [List.map_cons, List.sum_cons, ih]; simp; ring

private theorem weighted_row (hi : LR.Inv g) (hlr : g.lr = buildLrgraph p sents (Dict.keys (scanVocabulary p sents m).1) (scanVocabulary p sents m).2)
    (w : Str) (P : Str → Prop) [DecidablePred P] (f : Str → Rat) :
    (((rFeatures g w).filter (fun rc => decide (P rc.1))).map (fun rc => (rc.2 : Rat) * f rc.1)).sum =
      (((rightsAfter p m sents w).filter (fun r => decide (P r))).map f).sum := by
  rw [sum_filter_ite, sum_filter_ite', ← row_sum hi hlr]
  congr 1
  apply List.map_congr_left
  intro rc _
  split <;> simp

private theorem total_row (hi : LR.Inv g) (hlr : g.lr = buildLrgraph p sents (Dict.keys (scanVocabulary p sents m).1) (scanVocabulary p sents m).2)
    (w : Str) (P : Str → Prop) : ((totalOf (rFeatures g w) P : Int) : Rat) =
      (open Classical in (((rightsAfter p m sents w).filter (fun r => decide (P r))).length : Rat)) := by
  classical
  have h := weighted_row hi hlr w P (fun _ => 1)
  rw [sum_one] at h
  rw [← h]
  unfold totalOf
  have : ∀ l : List (Str × Int), (((l.map (·.2)).sum : Int) : Rat) = (l.map (fun rc => (rc.2 : Rat) * 1)).sum := by
    intro l; induction l with
    | nil => simp
    | cons a l ih => rw [List.map_cons, List.sum_cons, List.map_cons, List.sum_cons, ← ih]; push_cast; ring
  rw [this]

/-- `predict` in terms of the corpus -/
private theorem score_eq (hi : LR.Inv g) (hlr : g.lr = buildLrgraph p sents (Dict.keys (scanVocabulary p sents m).1) (scanVocabulary p sents m).2)
    (coef : Dict Str Rat) (w : Str) : V1.score p coef g w = nounScoreOf p coef m sents w := by
  classical
  have hlen : (rFeatures g w).length = (rightsAfter p m sents w).dedup.length := by
    rw [← List.length_map (f := fun x : Str × Int => x.1)]
    apply List.Perm.length_eq
    rw [List.perm_ext_iff_of_nodup (row_nodup hi w) (List.nodup_dedup _)]
    intro r
    rw [row_keys hi hlr, List.mem_dedup]
  unfold V1.score nounScoreOf
  rw [hlen]
  by_cases h : p.minNumOfFeatures < ((rightsAfter p m sents w).dedup.length : Int)
  · rw [if_pos h, if_pos h]
    unfold predictFeatures
    dsimp only
    rw [v1_tally]
    dsimp only
    have e1 := total_row hi hlr w (KnownPart coef w)
    have e2 := total_row hi hlr w (fun r => r ∉ Dict.keys coef)
    have e3 := weighted_row hi hlr w (KnownPart coef w) (fun r => Dict.getD coef r 0)
    have e4 : weightedSum coef w (rFeatures g w) = ((knownAfter p coef m sents w).map (fun r => Dict.getD coef r 0)).sum := by
      unfold weightedSum knownAfter
      convert e3
    have e1' : ((totalOf (rFeatures g w) (KnownPart coef w) : Int) : Rat) = ((knownAfter p coef m sents w).length : Rat) := by
      rw [e1]; rfl
    have e2' : ((totalOf (rFeatures g w) (fun r => r ∉ Dict.keys coef) : Int) : Rat) = ((unknownAfter p coef m sents w).length : Rat) := by
      rw [e2]; unfold unknownAfter; congr!
    rw [e4]
    generalize totalOf (rFeatures g w) (KnownPart coef w) = K at e1'
    generalize totalOf (rFeatures g w) (fun r => r ∉ Dict.keys coef) = U at e2'
    ext
    · dsimp only
      by_cases hK : K = 0
      · rw [if_pos hK, ← e1', hK]; simp
      · rw [if_neg hK, e1']
    · dsimp only
      by_cases hK : K + U = 0
      · rw [if_pos hK]
        push_cast
        rw [← e1', ← e2', ← Int.cast_add, hK]; simp
      · rw [if_neg hK]
        push_cast
        rw [e1', e2']
  · rw [if_neg h, if_neg h]
end

open Classical in
/-- C94: `train_extract` of `LRNounExtractor`, from the sentences to the result, for any parameters, coefficients, thresholds, candidates and set orders. It raises
    (a `ValueError`) exactly when there are no sentences. Otherwise the words returned are exactly those whose score, computed from the eojeols of the corpus alone,
    reaches the threshold and that are not left out; each is returned once, with that score, that share of known right parts, and as frequency the number of eojeols
    for which it is the longest returned word they split after. The coefficients stay as they were. -/
theorem C94_end_to_end (p : V1.Params) (enum : List Str → List Str) (henum : ∀ l, (enum l).Perm l) (s : V1.State) (sents : List Str) (minScore : Rat) (m : Int)
    (candidates : List Str) :
    (sents = [] → V1.trainExtract p enum s sents minScore m candidates = .error .valueError) ∧
    (sents ≠ [] → ∃ s' res, V1.trainExtract p enum s sents minScore m candidates = .ok (s', res) ∧ s'.coefficient = s.coefficient ∧ (res.map (·.1)).Nodup ∧
      (∀ w, w ∈ res.map (·.1) ↔ Reaches p s.coefficient m sents candidates minScore w ∧ ¬ LeftOut p s.coefficient m sents candidates minScore w) ∧
      (∀ w ns, (w, ns) ∈ res → (ns.score, ns.knownRRatio) = nounScoreOf p s.coefficient m sents w ∧
        ns.frequency = ((v1Tokens p sents).countP (fun e => decide (SplitsAfter p m sents w e ∧
          ∀ w' ∈ res.map (·.1), SplitsAfter p m sents w' e → w'.length ≤ w.length)) : Int))) := by
  constructor
  · rintro rfl; rfl
  · intro hne
    obtain ⟨s', h⟩ := (C45_train p s sents m).2 hne
    obtain ⟨g, h1, hi, _, _, hlr, hco, hsc, _⟩ := train_ok h
    have hscore : ∀ w, V1.predict p s' w = .ok (nounScoreOf p s.coefficient m sents w) := by
      intro w
      rw [v1_predict_default h1, score_eq hi hlr, hco]
    have hS : ∀ w x, Scored p s' m sents candidates minScore w x ↔ Reaches p s.coefficient m sents candidates minScore w ∧ x = nounScoreOf p s.coefficient m sents w := by
      intro w x
      unfold Scored Reaches
      rw [hscore]
      constructor
      · rintro ⟨a, b, c, d⟩
        have := Except.ok.inj c
        subst this
        exact ⟨⟨a, b, d⟩, rfl⟩
      · rintro ⟨⟨a, b, c⟩, rfl⟩; exact ⟨a, b, rfl, c⟩
    have hS' : ∀ w, (∃ x, Scored p s' m sents candidates minScore w x) ↔ Reaches p s.coefficient m sents candidates minScore w := by
      intro w
      constructor
      · rintro ⟨x, hx⟩; exact ((hS w x).1 hx).1
      · intro hx; exact ⟨_, (hS w _).2 ⟨hx, rfl⟩⟩
    have hD : ∀ w, Dropped p s' m sents candidates minScore w ↔ LeftOut p s.coefficient m sents candidates minScore w := by
      intro w
      unfold Dropped DroppedBy LeftOut
      simp only [hS', hco]
    have hord := henum (Dict.keys s'.substringCounter)
    obtain ⟨res, r1, r2, r3, _⟩ := C45_frequency p s s' sents m h _ hord minScore candidates
    refine ⟨s', res, ?_, hco, r2, ?_, ?_⟩
    · unfold V1.trainExtract; rw [h]; exact r1
    · intro w
      rw [(C45_extracted p s s' sents m h _ hord minScore candidates res r1 w).2, hS', hD]
    · intro w ns hm
      obtain ⟨x, hx, e1, e2⟩ := (C45_extracted p s s' sents m h _ hord minScore candidates res r1 w).1 ns hm
      refine ⟨?_, ?_⟩
      · rw [e1, e2]; exact ((hS w x).1 hx).2
      · rw [r3 w ns hm, List.countP_eq_length_filter]

/-- C94: without minimum and candidates given, 5 and the counted words are used, and a score of at least 1/2. -/
theorem C94_defaults (p : V1.Params) (enum : List Str → List Str) (s : V1.State) (sents : List Str) :
    V1.trainExtract p enum s sents = V1.trainExtract p enum s sents (1/2) 5 [] := rfl

/-! ### a concrete case -/

private def v1Text : List Str := ["학교는 학교를 학교가 학교는".toList, "바다는 바다를 바다는 먹다".toList]
private def v1Coef : V1.State := { coefficient := [("는".toList, 1), ("를".toList, 4/5), ("다".toList, -1)] }

/-- 학교: two 는 and one 를 known, one 가 unknown; 바다: two 는, one 를 -/
example : (V1.trainExtract {} id v1Coef v1Text (1/2) 1).toOption.map (fun x => x.2.map (fun e => (e.1, e.2.frequency, e.2.score, e.2.knownRRatio))) =
    some [("학교".toList, 4, 14/15, 3/4), ("바다".toList, 3, 14/15, 1)] := by decide +kernel

end Props
