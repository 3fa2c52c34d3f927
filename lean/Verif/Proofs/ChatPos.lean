import Verif.Proofs.NewsPos6
import Verif.Model.ChatPos
import Verif.Proofs.Hangle
import Mathlib.Tactic.Linarith
import Mathlib.Tactic.Ring
import Mathlib.Tactic.FieldSimp
import Mathlib.Algebra.Order.Field.Rat
import Mathlib.Tactic.Positivity
import Mathlib.Tactic.NormNum
import Mathlib.Algebra.Order.BigOperators.Group.List
/-! Lemmas about what `ChatPOSExtractor` changes. -/
namespace NewsPos
open Py PosSpec

/-! ### the compound words -/

theorem chatCheck_iff (stem eomi : Str) : chatCheck stem eomi = .ok true ↔
    (∀ c ∈ ['업', '닿', '땋'], stem.getLast? ≠ some c) ∧ Joinable stem eomi := by
  unfold chatCheck
  by_cases h : stem.getLast? = some '업' ∨ stem.getLast? = some '닿' ∨ stem.getLast? = some '땋'
  · rw [if_pos h]
    constructor
    · intro h'; cases h'
    · rintro ⟨h1, _⟩
      rcases h with h | h | h
      · exact absurd h (h1 _ (by simp))
      · exact absurd h (h1 _ (by simp))
      · exact absurd h (h1 _ (by simp))
  · rw [if_neg h, joinable_iff]
    constructor
    · intro hj
      refine ⟨fun c hc he => h ?_, hj⟩
      simp only [List.mem_cons, List.not_mem_nil, or_false] at hc
      rcases hc with rfl | rfl | rfl
      · exact Or.inl he
      · exact Or.inr (Or.inl he)
      · exact Or.inr (Or.inr he)
    · exact fun hj => hj.2

theorem chatCompoundOf_eq {stems predicators : Str → Bool} {base : Dict Str Entry} {w : Str} (h : ¬ In base w) :
    chatCompoundOf stems predicators base w = compoundOf chatCheck stems predicators base w := by
  unfold chatCompoundOf compoundOf
  cases separateLR w predicators (fun r => Dict.has base r) with
  | none => rfl
  | some lr =>
    dsimp only
    cases filterM (fun l => chatCheck l.1 l.2) ((Dict.getD base lr.2 (0, [])).2.map (fun l => (lr.1 ++ l.1, l.2))) with
    | error e => rfl
    | ok o =>
      dsimp only
      unfold keepLonger
      rw [(Dict.get?_eq_none_iff base w).2 h]

/-- the branch for words that are already in the table is never taken -/
theorem chatCompounds_eq {stems predicators : Str → Bool} {base : Dict Str Entry} {R : Dict Str Nat} (h : ∀ w, In R w → ¬ In base w) :
    chatCompounds stems predicators base R = parseCompounds chatCheck stems predicators base R := by
  induction R with
  | nil => rfl
  | cons x R ih =>
    obtain ⟨a, b⟩ := x
    have ih' := ih (fun w hw => h w (by simp only [In, Dict.keys, List.map_cons, List.mem_cons]; exact Or.inr hw))
    simp only [chatCompounds, parseCompounds, chatCompoundOf_eq (h a (by simp [In, Dict.keys])), ih']
    cases compoundOf chatCheck stems predicators base a with
    | error e => rfl
    | ok o => cases o <;> rfl

/-! ### wrong stems -/

/-- dropping the lemmas with a wrong stem -/
def without (wrong : List Str) (ls : List (Str × Str)) : Option (List (Str × Str)) :=
  if ls.filter (fun l => !wrong.contains l.1) = [] then none else some (ls.filter (fun l => !wrong.contains l.1))

theorem deleteWrong_entries (R : Dict Str Nat) (comp : Str → Option (List (Str × Str))) (wrong : List Str) :
    deleteWrong (entriesOf R comp) wrong = entriesOf R (fun w => (comp w).bind (without wrong)) := by
  unfold deleteWrong entriesOf
  rw [List.filterMap_filterMap]
  apply List.filterMap_congr
  rintro ⟨a, b⟩ _
  dsimp only
  cases comp a with
  | none => rfl
  | some ls =>
    simp only [Option.map_some, Option.bind_some, without]
    split <;> rfl

theorem counts_kept {R : Dict Str Nat} (comp c' : Str → Option (List (Str × Str))) (h : ∀ w, (c' w).isSome = true → (comp w).isSome = true) :
    (countsOf (entriesOf R comp)).filter (fun e => Dict.has (entriesOf R c') e.1) = countsOf (entriesOf R c') := by
  rw [countsOf_entries, countsOf_entries, List.filter_filter]
  apply List.filter_congr
  rintro ⟨a, b⟩ hm
  have ha : a ∈ Dict.keys R := List.mem_map.2 ⟨_, hm, rfl⟩
  rw [Bool.eq_iff_iff, Bool.and_eq_true, has_iff, mem_keys_entries]
  exact ⟨fun h' => h'.1.2, fun h' => ⟨⟨ha, h'⟩, h a h'⟩⟩

theorem filter_self (l : List Str) : l.filter (fun s => !l.contains s) = [] := by
  rw [List.filter_eq_nil_iff]; intro a ha; simpa using ha

/-- the whole of `_parse_predicator_compounds` -/
theorem chatParse_eq {stems predicators : Str → Bool} {base : Dict Str Entry} {R : Dict Str Nat} (h : ∀ w, In R w → ¬ In base w)
    {x : Dict Str Entry × List Str × Dict Str Nat} (hx : chatParse stems predicators base R = .ok x) :
    x = (entriesOf R (fun w => (compOf chatCheck stems predicators base w).bind
        (without (findWrongStem (entriesOf R (compOf chatCheck stems predicators base))))), [],
      countsOf (entriesOf R (fun w => (compOf chatCheck stems predicators base w).bind
        (without (findWrongStem (entriesOf R (compOf chatCheck stems predicators base))))))) := by
  unfold chatParse at hx
  rw [chatCompounds_eq h] at hx
  cases hp : parseCompounds chatCheck stems predicators base R with
  | error e => rw [hp] at hx; cases hx
  | ok cs =>
    rw [hp] at hx
    dsimp only at hx
    cases hx
    rw [parseCompounds_eq hp, deleteWrong_entries, filter_self, counts_kept]
    intro w hw
    cases hc : compOf chatCheck stems predicators base w with
    | none => rw [hc] at hw; cases hw
    | some _ => rfl

/-! ### what a wrong stem and a wrong ending are -/

theorem sumI_addI {κ : Type} [DecidableEq κ] (d : Dict κ Int) (p : κ → Bool) (k : κ) (n : Int) :
    Dict.sumI ((Dict.addI d k n).filter (fun e => p e.1)) = Dict.sumI (d.filter (fun e => p e.1)) + if p k then n else 0 := by
  unfold Dict.addI
  induction d with
  | nil => by_cases hp : p k = true <;> simp [Dict.set, hp, Dict.sumI, Dict.values, Dict.getD]
  | cons x d ih =>
    obtain ⟨a, b⟩ := x
    have hg : Dict.getD ((a, b) :: d) k 0 = if a = k then b else Dict.getD d k 0 := by
      unfold Dict.getD; rw [Dict.get?_cons]; split <;> rfl
    rw [hg]
    simp only [Dict.set]
    by_cases hak : a = k
    · subst hak
      rw [if_pos rfl, if_pos rfl]
      by_cases hp : p a = true
      · simp [hp, Dict.sumI, Dict.values]; omega
      · simp [hp]
    · rw [if_neg hak, if_neg hak]
      by_cases hp : p a = true
      · simp only [Dict.sumI, Dict.values, List.filter_cons, hp, if_true, List.map_cons, List.sum_cons] at ih ⊢
        omega
      · simp only [List.filter_cons, hp] at ih ⊢
        simpa using ih

private theorem sumI_counter (row : Dict Str Int) (d : Dict Char Int) :
    Dict.sumI (row.foldl (fun (d : Dict Char Int) e =>
      match e.1.head? with
      | none => d
      | some c => if Hangle.isJaum c then Dict.addI d c e.2 else d) d) = Dict.sumI d + Dict.sumI (row.filter (fun e => beginsWithJaum e.1)) := by
  induction row generalizing d with
  | nil => simp [Dict.sumI, Dict.values]
  | cons x row ih =>
    obtain ⟨a, b⟩ := x
    rw [List.foldl_cons, ih]
    cases ha : a.head? with
    | none =>
      have : beginsWithJaum a = false := by unfold beginsWithJaum; rw [ha]
      simp [this]
    | some c =>
      by_cases hj : Hangle.isJaum c = true
      · have hc := (Hangle.isJaum_iff c).1 hj
        have : beginsWithJaum a = true := by unfold beginsWithJaum; rw [ha]; simpa using hc
        have h2 := sumI_addI d (fun _ => true) c b
        simp only [List.filter_true, if_true] at h2
        simp only [hj, if_true, List.filter_cons, this]
        rw [h2]
        simp only [Dict.sumI, Dict.values, List.map_cons, List.sum_cons]
        omega
      · have hc : ¬ Spec.Consonant c := fun h => hj ((Hangle.isJaum_iff c).2 h)
        have : beginsWithJaum a = false := by unfold beginsWithJaum; rw [ha]; simpa using hc
        simp [this, hj]

private theorem rowSum_nadd (g : Nested Str) (a b : Str) (c : Int) (p : Str → Bool) (x : Str) :
    Dict.sumI ((Nested.row (Nested.nadd g a b c) x).filter (fun e => p e.1)) =
      Dict.sumI ((Nested.row g x).filter (fun e => p e.1)) + if a = x ∧ p b = true then c else 0 := by
  unfold Nested.nadd
  rw [Nested.row_set]
  by_cases h : a = x
  · subst h
    rw [if_pos rfl, sumI_addI]
    simp
  · rw [if_neg h]; simp [h]

private theorem rowSum_lemmas (ls : List (Str × Str)) (n : Int) (g : Nested Str) (p : Str → Bool) (x : Str) :
    Dict.sumI ((Nested.row (ls.foldl (fun g l => Nested.nadd g l.1 l.2 n) g) x).filter (fun e => p e.1)) =
      Dict.sumI ((Nested.row g x).filter (fun e => p e.1)) + ((ls.filter (fun l => decide (l.1 = x) && p l.2)).length : Int) * n := by
  induction ls generalizing g with
  | nil => simp
  | cons l ls ih =>
    rw [List.foldl_cons, ih, rowSum_nadd]
    by_cases h : l.1 = x ∧ p l.2 = true
    · simp [h]; ring
    · rw [if_neg h]
      have : (decide (l.1 = x) && p l.2) = false := by
        cases hh : (decide (l.1 = x) && p l.2) with
        | false => rfl
        | true => exact absurd (by simpa using hh) h
      simp [this]

theorem rowSum_stemGraph (C : Dict Str Entry) (p : Str → Bool) (x : Str) :
    Dict.sumI ((Nested.row (stemGraph C) x).filter (fun e => p e.1)) = lemmaSum C (fun e => e.2.1) (fun l => decide (l.1 = x) && p l.2) := by
  have : ∀ g : Nested Str, Dict.sumI ((Nested.row (C.foldl (fun g e => e.2.2.foldl (fun g l => Nested.nadd g l.1 l.2 e.2.1) g) g) x).filter (fun e => p e.1)) =
      Dict.sumI ((Nested.row g x).filter (fun e => p e.1)) + lemmaSum C (fun e => e.2.1) (fun l => decide (l.1 = x) && p l.2) := by
    induction C with
    | nil => intro g; simp [lemmaSum]
    | cons e C ih =>
      intro g
      rw [List.foldl_cons, ih, rowSum_lemmas]
      simp only [lemmaSum, List.map_cons, List.sum_cons]
      ring
  have h0 := this []
  simpa [stemGraph, Nested.row, Dict.sumI, Dict.values] using h0

private theorem lemmaSum_nonneg (C : Dict Str Entry) (p : Str × Str → Bool) : 0 ≤ lemmaSum C (fun e => e.2.1) p := by
  unfold lemmaSum
  apply List.sum_nonneg
  intro a ha
  obtain ⟨e, _, rfl⟩ := List.mem_map.1 ha
  positivity

private theorem mem_keys_stemGraph (C : Dict Str Entry) (x : Str) (h : 0 < lemmaSum C (fun e => e.2.1) (fun l => decide (l.1 = x))) :
    x ∈ Dict.keys (stemGraph C) := by
  by_contra hx
  have h1 := rowSum_stemGraph C (fun _ => true) x
  rw [Nested.row, (Dict.get?_eq_none_iff _ _).2 hx] at h1
  simp only [Bool.and_true, Option.getD_none] at h1
  rw [← h1] at h
  simp [Dict.sumI, Dict.values] at h

/-- a stem is wrong if at least nine tenths of its (positive) frequency come with endings that begin with a consonant letter -/
theorem mem_findWrongStem (C : Dict Str Entry) (x : Str) : x ∈ findWrongStem C ↔
    0 < lemmaSum C (fun e => e.2.1) (fun l => decide (l.1 = x)) ∧
    9 * lemmaSum C (fun e => e.2.1) (fun l => decide (l.1 = x)) ≤ 10 * lemmaSum C (fun e => e.2.1) (fun l => decide (l.1 = x) && beginsWithJaum l.2) := by
  have h1 := rowSum_stemGraph C (fun _ => true) x
  simp only [Bool.and_true, List.filter_true] at h1
  have h2 := rowSum_stemGraph C beginsWithJaum x
  have h3 : jaumBeginProp (stemGraph C) x = if lemmaSum C (fun e => e.2.1) (fun l => decide (l.1 = x)) = 0 then 0 else
      (lemmaSum C (fun e => e.2.1) (fun l => decide (l.1 = x) && beginsWithJaum l.2) : Rat) /
        (lemmaSum C (fun e => e.2.1) (fun l => decide (l.1 = x)) : Rat) := by
    have h0 : jaumBeginProp (stemGraph C) x = if Dict.sumI (Nested.row (stemGraph C) x) = 0 then 0 else
        (Dict.sumI ((Nested.row (stemGraph C) x).foldl (fun (d : Dict Char Int) e =>
          match e.1.head? with
          | none => d
          | some c => if Hangle.isJaum c then Dict.addI d c e.2 else d) []) : Rat) / (Dict.sumI (Nested.row (stemGraph C) x) : Rat) := rfl
    rw [h0, sumI_counter, h1, h2]
    simp [Dict.sumI, Dict.values]
  have h4 := lemmaSum_nonneg C (fun l => decide (l.1 = x))
  have h5 := mem_keys_stemGraph C x
  unfold findWrongStem
  rw [List.mem_filter, decide_eq_true_iff, h3]
  generalize lemmaSum C (fun e => e.2.1) (fun l => decide (l.1 = x)) = T at *
  generalize lemmaSum C (fun e => e.2.1) (fun l => decide (l.1 = x) && beginsWithJaum l.2) = J at *
  by_cases hT : T = 0
  · rw [if_pos hT]
    constructor
    · rintro ⟨_, h⟩; norm_num at h
    · rintro ⟨h, _⟩; omega
  · rw [if_neg hT]
    have hT' : 0 < T := by omega
    have hTq : (0 : Rat) < (T : Rat) := by exact_mod_cast hT'
    have : (9 / 10 : Rat) ≤ (J : Rat) / (T : Rat) ↔ 9 * T ≤ 10 * J := by
      rw [le_div_iff₀ hTq]
      constructor
      · intro h
        have : (9 * T : Rat) ≤ 10 * J := by linarith
        exact_mod_cast this
      · intro h
        have : (9 * T : Rat) ≤ 10 * J := by exact_mod_cast h
        linarith
    rw [ge_iff_le, this]
    exact ⟨fun h => ⟨hT', h.2⟩, fun h => ⟨h5 hT', h.2⟩⟩

private theorem getD_count (P : Dict Str Entry) (q : Str × Entry → Bool) (n : Int) (d : Dict Str Int) (x : Str) :
    Dict.getD (P.foldl (fun d e => if q e then e.2.2.foldl (fun d l => Dict.addI d l.2 n) d else d) d) x 0 =
      Dict.getD d x 0 + lemmaSum P (fun e => if q e then n else 0) (fun l => decide (l.2 = x)) := by
  induction P generalizing d with
  | nil => simp [lemmaSum]
  | cons e P ih =>
    rw [List.foldl_cons, ih]
    have hl : lemmaSum (e :: P) (fun e => if q e then n else 0) (fun l => decide (l.2 = x)) =
      ((e.2.2.filter (fun l => decide (l.2 = x))).length : Int) * (if q e then n else 0) +
        lemmaSum P (fun e => if q e then n else 0) (fun l => decide (l.2 = x)) := by simp [lemmaSum]
    rw [hl]
    by_cases hq : q e = true
    · rw [if_pos hq, if_pos hq, Dict.getD_foldl_addI]
      simp only [List.map_const', List.sum_replicate, nsmul_eq_mul]
      ring
    · rw [if_neg hq, if_neg hq]; ring

private theorem wf_count (P : Dict Str Entry) (q : Str × Entry → Bool) (n : Int) {d : Dict Str Int} (h : Dict.WF d) :
    Dict.WF (P.foldl (fun d e => if q e then e.2.2.foldl (fun d l => Dict.addI d l.2 n) d else d) d) := by
  induction P generalizing d with
  | nil => exact h
  | cons e P ih =>
    apply ih
    dsimp only
    split
    · exact Dict.WF.foldl_addI e.2.2 (fun l => l.2) (fun _ => n) h
    · exact h

/-- an ending is wrong if it occurs more often (over the lemmas of all words) in the compounds than elsewhere -/
theorem mem_findWrongEomi (P C : Dict Str Entry) (x : Str) : x ∈ findWrongEomi P C ↔
    0 < lemmaSum P (fun e => if Dict.has C e.1 then 1 else -1) (fun l => decide (l.2 = x)) := by
  unfold findWrongEomi
  dsimp only
  have h1 := getD_count P (fun e => Dict.has C e.1) 1 [] x
  have h2 := getD_count P (fun e => !Dict.has C e.1) (-1)
    (P.foldl (fun d e => if Dict.has C e.1 then e.2.2.foldl (fun d l => Dict.addI d l.2 1) d else d) []) x
  have w1 := wf_count P (fun e => Dict.has C e.1) 1 (d := []) Dict.wf_nil
  have w2 := wf_count P (fun e => !Dict.has C e.1) (-1) w1
  rw [h1] at h2
  obtain ⟨D, hD⟩ : ∃ D, P.foldl (fun d e => if !Dict.has C e.1 then e.2.2.foldl (fun d l => Dict.addI d l.2 (-1)) d else d)
    (P.foldl (fun d e => if Dict.has C e.1 then e.2.2.foldl (fun d l => Dict.addI d l.2 1) d else d) []) = D := ⟨_, rfl⟩
  rw [hD] at h2 w2
  have hs : lemmaSum P (fun e => if Dict.has C e.1 then 1 else 0) (fun l => decide (l.2 = x)) +
      lemmaSum P (fun e => if !Dict.has C e.1 then -1 else 0) (fun l => decide (l.2 = x)) =
      lemmaSum P (fun e => if Dict.has C e.1 then 1 else -1) (fun l => decide (l.2 = x)) := by
    clear h1 h2 w1 w2 hD
    induction P with
    | nil => simp [lemmaSum]
    | cons e P ih =>
      simp only [lemmaSum, List.map_cons, List.sum_cons] at ih ⊢
      rw [← ih]
      cases Dict.has C e.1 <;> simp <;> ring
  have h3 : Dict.getD D x 0 = lemmaSum P (fun e => if Dict.has C e.1 then 1 else -1) (fun l => decide (l.2 = x)) := by
    rw [h2, ← hs]; simp [Dict.getD]
  rw [← h3]
  constructor
  · intro h
    obtain ⟨e, he, rfl⟩ := List.mem_map.1 h
    have he' := List.mem_filter.1 he
    have : (e.1, e.2) ∈ D := by rw [← hD]; exact he'.1
    rw [Dict.getD, (Dict.mem_iff_get? w2).1 this]
    simpa using he'.2
  · intro h
    cases hg : Dict.get? D x with
    | none => rw [Dict.getD, hg] at h; simp at h
    | some v =>
      rw [Dict.getD, hg] at h
      refine List.mem_map.2 ⟨(x, v), List.mem_filter.2 ⟨?_, by simpa using h⟩, rfl⟩
      rw [← hD] at hg
      exact Dict.mem_of_get? hg

/-! ### the pass as a whole -/

/-- the lemmatisation of the compounds -/
def chatComp (R : Dict Str Nat) (stems predicators : Str → Bool) (base : Dict Str Entry) (w : Str) : Option (List (Str × Str)) :=
  (compOf chatCheck stems predicators base w).bind (without (findWrongStem (entriesOf R (compOf chatCheck stems predicators base))))

theorem chatMatch_stage {s : State} {f : Found} {s' : State} {f' : Found} (hA : ∀ w, In f.eojeols w → ¬ In s.adjectives w)
    (hV : ∀ w, In f.eojeols w → ¬ In s.verbs w) (h : chatMatchPredicatorCompounds s f = .ok (s', f')) :
    ∃ ca cv, CompoundStage s f s' f' ca cv ∧ ca = chatComp f.eojeols (knownStem s) (predicator s) s.adjectives ∧
      cv = chatComp f.eojeols (knownStem s) (predicator s) s.verbs ∧
      s'.adjectiveStems = s.adjectiveStems ∧ s'.verbStems = s.verbStems ∧
      (∀ e, e ∈ s'.eomis ↔ e ∈ s.eomis ∧ e ∉ findWrongEomi s'.adjectives (entriesOf f.eojeols ca) ∧
        e ∉ findWrongEomi s'.verbs (entriesOf f.eojeols cv)) ∧
      (∀ w ∈ Dict.keys f.eojeols, compoundOf chatCheck (knownStem s) (predicator s) s.adjectives w =
          .ok (compOf chatCheck (knownStem s) (predicator s) s.adjectives w) ∧
        compoundOf chatCheck (knownStem s) (predicator s) s.verbs w = .ok (compOf chatCheck (knownStem s) (predicator s) s.verbs w)) := by
  unfold chatMatchPredicatorCompounds at h
  dsimp only at h
  cases h1 : chatParse (fun w => s.verbStems.contains w || s.adjectiveStems.contains w)
    (fun w => Dict.has s.adjectives w || Dict.has s.verbs w) s.adjectives f.eojeols with
  | error e => rw [h1] at h; cases h
  | ok x =>
    have e1 := chatParse_eq hA h1
    obtain ⟨adj, stA, cA⟩ := x
    rw [h1] at h
    cases e1
    dsimp only at h
    rw [List.append_nil] at h
    cases h2 : chatParse (fun w => s.verbStems.contains w || s.adjectiveStems.contains w)
      (fun w => Dict.has s.adjectives w || Dict.has s.verbs w) s.verbs f.eojeols with
    | error e => rw [h2] at h; cases h
    | ok y =>
      have e2 := chatParse_eq hV h2
      obtain ⟨verb, stV, cV⟩ := y
      rw [h2] at h
      cases e2
      dsimp only at h
      rw [List.append_nil] at h
      cases h
      refine ⟨_, _, ⟨rfl, rfl, rfl, rfl, rfl, rfl, rfl, rfl, rfl, rfl, rfl, rfl⟩, rfl, rfl, rfl, rfl, ?_, ?_⟩
      · intro e
        dsimp only
        rw [List.mem_filter]
        simp only [Bool.not_eq_true', ← Bool.not_eq_true, List.contains_iff_mem, List.mem_append, not_or]
      · intro w hw
        constructor
        · unfold chatParse at h1
          rw [chatCompounds_eq hA] at h1
          cases hp : parseCompounds chatCheck (fun w => s.verbStems.contains w || s.adjectiveStems.contains w)
            (fun w => Dict.has s.adjectives w || Dict.has s.verbs w) s.adjectives f.eojeols with
          | error e => rw [hp] at h1; cases h1
          | ok cs => exact parseCompounds_all hp w hw
        · unfold chatParse at h2
          rw [chatCompounds_eq hV] at h2
          cases hp : parseCompounds chatCheck (fun w => s.verbStems.contains w || s.adjectiveStems.contains w)
            (fun w => Dict.has s.adjectives w || Dict.has s.verbs w) s.verbs f.eojeols with
          | error e => rw [hp] at h2; cases h2
          | ok cs => exact parseCompounds_all hp w hw

end NewsPos
