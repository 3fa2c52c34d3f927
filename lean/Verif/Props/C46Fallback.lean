import Verif.Props.C46
import Verif.Proofs.MaxLR
import Mathlib.Tactic.Linarith
/-! C46 continued: `LRNounExtractor.predict` for a word with too few right parts, `is_noun`, and the calls before training. -/
set_option linter.unusedSimpArgs false
set_option linter.unusedVariables false
namespace Props
open Py V1

/-- cutting `word` after `e` characters yields the value `v`: both parts are nouns of the table and `v` is the larger of their values, or the first is one
    and the rest has a coefficient above `m` -/
def CutValue (coef : Dict Str Rat) (m : Rat) (nouns : Dict Str (Rat × Rat)) (word : Str) (e : Nat) (v : Rat × Rat) : Prop :=
  0 < e ∧ e < word.length ∧ ∃ s1, Dict.get? nouns (word.take e) = some s1 ∧
    ((∃ s2, Dict.get? nouns (word.drop e) = some s2 ∧ (v = s1 ∧ (s2.1 < s1.1 ∨ s2.1 = s1.1 ∧ s2.2 ≤ s1.2) ∨ v = s2 ∧ (s1.1 < s2.1 ∨ s1.1 = s2.1 ∧ s1.2 < s2.2))) ∨
     (Dict.get? nouns (word.drop e) = none ∧ m < Dict.getD coef (word.drop e) 0 ∧ v = (Dict.getD coef (word.drop e) 0, 0)))

private def val (coef : Dict Str Rat) (m : Rat) (nouns : Dict Str (Rat × Rat)) (word : Str) (e : Nat) : Option (Str × (Rat × Rat)) :=
  match Dict.get? nouns (word.take e) with
  | none => none
  | some s1 => match Dict.get? nouns (word.drop e) with
    | some s2 => some (word.take e, maxPair s1 s2)
    | none => if Dict.getD coef (word.drop e) 0 > m then some (word.take e, (Dict.getD coef (word.drop e) 0, 0)) else none

private theorem cut_val (coef : Dict Str Rat) (m : Rat) (nouns : Dict Str (Rat × Rat)) (word : Str) (e : Nat) :
    subwordCut coef (.num m) nouns word e = .ok (val coef m nouns word e) := by
  unfold subwordCut val
  cases Dict.get? nouns (word.take e) with
  | none => rfl
  | some s1 =>
    dsimp only
    cases Dict.get? nouns (word.drop e) with
    | some s2 => rfl
    | none =>
      dsimp only [gtMin]
      by_cases h : Dict.getD coef (word.drop e) 0 > m
      · rw [if_pos h, decide_eq_true h]; rfl
      · rw [if_neg h, decide_eq_false h]; rfl

private theorem val_some (coef : Dict Str Rat) (m : Rat) (nouns : Dict Str (Rat × Rat)) (word : Str) (e : Nat) (x : Str × (Rat × Rat)) (he : 0 < e ∧ e < word.length) :
    val coef m nouns word e = some x ↔ x.1 = word.take e ∧ CutValue coef m nouns word e x.2 := by
  obtain ⟨k, v⟩ := x
  unfold val CutValue
  constructor
  · intro h
    split at h
    · cases h
    rename_i s1 h1
    split at h
    · rename_i s2 h2
      have h := Option.some.inj h
      have hk : word.take e = k := congrArg Prod.fst h
      have hv : maxPair s1 s2 = v := congrArg Prod.snd h
      refine ⟨hk.symm, he.1, he.2, s1, h1, .inl ⟨s2, h2, ?_⟩⟩
      unfold maxPair at hv
      split at hv
      · rename_i hc
        right
        refine ⟨hv.symm, ?_⟩
        rcases hc with hc | hc
        · exact .inl hc
        · exact .inr ⟨hc.1.symm, hc.2⟩
      · rename_i hc
        left
        refine ⟨hv.symm, ?_⟩
        rw [not_or, not_and] at hc
        rcases lt_trichotomy s2.1 s1.1 with h' | h' | h'
        · exact .inl h'
        · exact .inr ⟨h', not_lt.1 (hc.2 h')⟩
        · exact absurd h' hc.1
    · rename_i h2
      split at h
      · rename_i hc
        have h := Option.some.inj h
        have hk : word.take e = k := congrArg Prod.fst h
        have hv : (Dict.getD coef (word.drop e) 0, (0 : Rat)) = v := congrArg Prod.snd h
        exact ⟨hk.symm, he.1, he.2, s1, h1, .inr ⟨h2, hc, hv.symm⟩⟩
      · cases h
  · rintro ⟨hk, _, _, s1, h1, h⟩
    dsimp only at hk h
    subst hk
    rw [h1]
    dsimp only
    rcases h with ⟨s2, h2, h⟩ | ⟨h2, h3, rfl⟩
    · rw [h2]
      dsimp only
      unfold maxPair
      rcases h with ⟨rfl, h⟩ | ⟨rfl, h⟩
      · rw [if_neg]
        rintro (h' | h') <;> rcases h with h | h
        · linarith
        · linarith [h.1]
        · linarith [h'.1]
        · linarith [h'.2, h.2]
      · rw [if_pos]
        rcases h with h | h
        · exact .inl h
        · exact .inr ⟨h.1.symm, h.2⟩
    · rw [h2]
      dsimp only
      rw [if_pos h3]

private theorem mapM_val (coef : Dict Str Rat) (m : Rat) (nouns : Dict Str (Rat × Rat)) (word : Str) (es : List Nat) :
    es.mapM (subwordCut coef (.num m) nouns word) = .ok (es.map (val coef m nouns word)) := by
  induction es with
  | nil => rfl
  | cons e es ih => rw [List.mapM_cons, cut_val, ih]; rfl

private theorem score_pre' : TotalPre (fun x y : Str × (Rat × Rat) => decide (y.2.1 ≤ x.2.1)) :=
  ⟨fun a b c h1 h2 => by simp only [decide_eq_true_eq] at *; exact le_trans h2 h1, fun a b => by simp only [decide_eq_true_eq]; exact le_total _ _⟩

/-- **C46** (v1) A word with too few right parts is judged by the noun table: the score is (0, 0) if no cut of the word has a value, and otherwise the value of
    the cut with the highest score, among equals the one with the shortest first part. -/
theorem C46_v1_fallback (p : V1.Params) (s : V1.State) (g : LR.State) (hg : s.lrgraph = some g) (word : Str)
    (hlen : (((LR.getR g word (-1)).filter (fun rc => rc.1 ≠ [])).length : Int) ≤ p.minNumOfFeatures) (m : Rat) (nouns : Dict Str (Rat × Rat)) :
    ((∀ e v, ¬ CutValue s.coefficient m nouns word e v) → V1.predict p s word (.num m) (some nouns) = .ok (0, 0)) ∧
    ((∃ e v, CutValue s.coefficient m nouns word e v) → ∃ e v, V1.predict p s word (.num m) (some nouns) = .ok v ∧ CutValue s.coefficient m nouns word e v ∧
      ∀ e' v', CutValue s.coefficient m nouns word e' v' → v'.1 < v.1 ∨ v'.1 = v.1 ∧ e ≤ e') := by
  have e1 : V1.rFeatures g word = (LR.getR g word (-1)).filter (fun rc => rc.1 ≠ []) := rfl
  have hpred : V1.predict p s word (.num m) (some nouns) = subwordScore s.coefficient word (.num m) nouns := by
    unfold V1.predict
    rw [hg]
    dsimp only
    rw [e1, if_neg (by omega)]
    rfl
  obtain ⟨es, hes⟩ : ∃ es, (List.range (word.length - 1)).map (· + 1) = es := ⟨_, rfl⟩
  have hmem : ∀ e, e ∈ es ↔ 0 < e ∧ e < word.length := by
    intro e
    rw [← hes, List.mem_map]
    constructor
    · rintro ⟨k, hk, rfl⟩; rw [List.mem_range] at hk; omega
    · rintro ⟨h1, h2⟩; exact ⟨e - 1, by rw [List.mem_range]; omega, by omega⟩
  have hord : es.Pairwise (· < ·) := by
    rw [← hes, List.pairwise_map]
    exact List.pairwise_lt_range.imp (fun h => by omega)
  have hsub : subwordScore s.coefficient word (.num m) nouns = .ok (bestSubword (es.filterMap (val s.coefficient m nouns word))) := by
    unfold subwordScore
    rw [hes, mapM_val]
    show Except.ok _ = _
    rw [List.filterMap_map]
    rfl
  rw [hpred, hsub]
  unfold bestSubword
  have hvs : ∀ x, x ∈ es.filterMap (val s.coefficient m nouns word) ↔ ∃ e, x.1 = word.take e ∧ CutValue s.coefficient m nouns word e x.2 := by
    intro x
    rw [List.mem_filterMap]
    constructor
    · rintro ⟨e, he, h⟩; exact ⟨e, (val_some _ _ _ _ _ _ ((hmem e).1 he)).1 h⟩
    · rintro ⟨e, h1, h2⟩
      exact ⟨e, (hmem e).2 ⟨h2.1, h2.2.1⟩, (val_some _ _ _ _ _ _ ⟨h2.1, h2.2.1⟩).2 ⟨h1, h2⟩⟩
  have hlen2 : (es.filterMap (val s.coefficient m nouns word)).Pairwise (fun x y => x.1.length < y.1.length) := by
    rw [List.pairwise_filterMap]
    refine hord.imp_of_mem ?_
    intro e e' he he' hlt x hx y hy
    have h1 := ((val_some _ _ _ _ _ _ ((hmem e).1 he)).1 hx).1
    have h2 := ((val_some _ _ _ _ _ _ ((hmem e').1 he')).1 hy).1
    rw [h1, h2, List.length_take, List.length_take]
    have := (hmem e').1 he'
    omega
  generalize es.filterMap (val s.coefficient m nouns word) = L at hvs hlen2
  have hst := sorted_stable score_pre' hlen2
  have hmems : ∀ x, x ∈ sorted (fun x y : Str × (Rat × Rat) => decide (y.2.1 ≤ x.2.1)) L ↔ x ∈ L := fun x => mem_sorted
  generalize sorted (fun x y : Str × (Rat × Rat) => decide (y.2.1 ≤ x.2.1)) L = S at hst hmems
  constructor
  · intro hno
    cases S with
    | nil => rfl
    | cons x S =>
      obtain ⟨e, _, h⟩ := (hvs x).1 ((hmems x).1 List.mem_cons_self)
      exact absurd h (hno _ _)
  · rintro ⟨e, v, hc⟩
    cases S with
    | nil =>
      have := (hmems (word.take e, v)).2 ((hvs _).2 ⟨e, rfl, hc⟩)
      cases this
    | cons x S =>
      obtain ⟨ex, hx1, hx2⟩ := (hvs x).1 ((hmems x).1 List.mem_cons_self)
      refine ⟨ex, x.2, rfl, hx2, ?_⟩
      intro e' v' hc'
      have hy := (hmems (word.take e', v')).2 ((hvs _).2 ⟨e', rfl, hc'⟩)
      rcases List.mem_cons.1 hy with hy | hy
      · have hl := congrArg (fun z => z.1.length) hy
        dsimp only at hl
        rw [hx1, List.length_take, List.length_take] at hl
        have h1 := hc'.2.1
        have h2 := hx2.2.1
        right
        exact ⟨by rw [← hy], by omega⟩
      · have := (List.pairwise_cons.1 hst).1 _ hy
        obtain ⟨q1, q2⟩ := this
        rw [decide_eq_true_iff] at q1 q2
        dsimp only at q1 q2
        rcases lt_or_eq_of_le q1 with h | h
        · exact .inl h
        · right
          refine ⟨h, ?_⟩
          have := q2 (le_of_eq h.symm)
          rw [hx1, List.length_take, List.length_take] at this
          have h1 := hc'.2.1
          omega

/-- **C46** (v1) `is_noun` compares the default prediction with the minimum score; before training every prediction is an AttributeError. -/
theorem C46_v1_is_noun (p : V1.Params) (s : V1.State) (word : Str) (m : Rat) :
    (s.lrgraph = none → V1.isNoun p s word m = .error .attributeError ∧ ∀ a nouns, V1.predict p s word a nouns = .error .attributeError) ∧
    (s.lrgraph ≠ none → ∃ score ratio b, V1.predict p s word = .ok (score, ratio) ∧ V1.isNoun p s word m = .ok b ∧ (b = true ↔ m ≤ score)) := by
  constructor
  · intro h
    have : ∀ a nouns, V1.predict p s word a nouns = .error .attributeError := by
      intro a nouns
      unfold V1.predict
      rw [h]
    refine ⟨?_, this⟩
    unfold V1.isNoun
    rw [this]
    rfl
  · intro h
    obtain ⟨g, hg⟩ := Option.ne_none_iff_exists'.1 h
    have : ∃ x, V1.predict p s word = .ok x := by
      unfold V1.predict
      rw [hg]
      dsimp only
      split
      · exact ⟨_, rfl⟩
      · exact ⟨_, V1.subwordScore_nil _ _ _⟩
    obtain ⟨x, hx⟩ := this
    refine ⟨x.1, x.2, decide (x.1 ≥ m), hx, ?_, ?_⟩
    · unfold V1.isNoun
      rw [hx]
      rfl
    · exact decide_eq_true_iff

private def fbState : V1.State := { coefficient := [("에는".toList, 9/10), ("는".toList, 1/2)], lrgraph := some {} }
private def fbNouns : Dict Str (Rat × Rat) := [("부산".toList, (3/5, 1)), ("바다".toList, (7/10, 1/2)), ("부산바다".toList, (7/10, 1))]

/-- the hypotheses hold; two cuts compete and the coefficient of 에는 wins -/
example : ((((LR.getR {} "부산바다에는".toList (-1)).filter (fun rc => rc.1 ≠ [])).length : Int) ≤ ({} : V1.Params).minNumOfFeatures) ∧
    V1.predict {} fbState "부산바다에는".toList (.num (1/2)) (some fbNouns) = .ok (9/10, 0) ∧
    V1.predict {} fbState "부산바다".toList (.num (1/2)) (some fbNouns) = .ok (7/10, 1/2) ∧
    V1.predict {} fbState "부산".toList (.num (1/2)) (some fbNouns) = .ok (0, 0) := by
  refine ⟨by decide +kernel, by decide +kernel, by decide +kernel, by decide +kernel⟩

end Props
