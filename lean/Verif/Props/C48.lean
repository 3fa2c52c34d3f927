import Verif.Props.C46
import Verif.Proofs.Josa
import Verif.Proofs.NounV2
import Mathlib.Analysis.SpecialFunctions.Log.Basic
import Mathlib.Data.List.Perm.Basic
/-! C48: the search for new positive features (`extract_domain_pos_features`). -/
set_option linter.unusedSimpArgs false
namespace Props
open Py Nested

/-! ### what is accepted -/

/-- the entropy of a list of counts -/
noncomputable def countEntropy (cs : List Int) : ℝ := -(cs.map (fun c : Int => (c : ℝ) / (cs.sum : ℝ) * Real.log ((c : ℝ) / (cs.sum : ℝ)))).sum

/-- the left parts of more than one character that occur before `r`, with their counts -/
def leftsOf (g : LR.State) (r : Str) : List (Str × Int) := (LR.getL g r (-1)).filter (fun lc => decide (1 < lc.1.length))

/-- the last characters of the left parts -/
def lastChars (row : List (Str × Int)) : List (Option Char) := (row.map (fun lc => lc.1.getLast?)).dedup

/-- `r` is a noun followed by a positive feature, the noun being the shortest one `r` starts with -/
def NounThenFeature (nouns : List Str) (D : Str → Prop) (r : Str) : Prop :=
  ∃ u v, r = u ++ v ∧ u ≠ [] ∧ v ≠ [] ∧ u ∈ nouns ∧ (∀ u', u' ≠ [] → u' <+: u → u' ∈ nouns → u' = u) ∧ D v

/-- a noun that reaches into `r` -/
def ReachesInto (nouns : List Str) (r l : Str) : Prop := ∃ u, u ≠ [] ∧ u <+: r ∧ l ++ u ∈ nouns

/-- the criteria for a new feature: not a noun with a feature, enough different last characters before it, spread widely
    enough, mostly after nouns (`score`), often enough after nouns (`freq`), after enough different nouns -/
structure Accepted (p : Josa.Params) (g : LR.State) (nouns : List Str) (D : Str → Prop) (r : Str) (score : Rat) (freq : Int) : Prop where
  notNJ : ¬ NounThenFeature nouns D r
  unique : p.minNumOfUniqueLastchar ≤ ((lastChars (leftsOf g r)).length : Int)
  entropy : (p.minEntropyOfLastchar : ℝ) ≤ countEntropy ((lastChars (leftsOf g r)).map (fun ch => totalOf (leftsOf g r) (fun l => l.getLast? = ch)))
  freq_eq : freq = totalOf (leftsOf g r) (fun l => l ∈ nouns ∧ ¬ ReachesInto nouns r l)
  score_eq : score = ((freq - totalOf (leftsOf g r) (ReachesInto nouns r) : Int) : Rat) / ((freq + totalOf (leftsOf g r) (ReachesInto nouns r) : Int) : Rat)
  score_ge : p.minPosScore ≤ score
  freq_ge : p.minPosFeatureFrequency ≤ freq
  nounEntropy : (p.minNounEntropy : ℝ) ≤ countEntropy (((leftsOf g r).filter (fun lc => nouns.contains lc.1)).map (·.2))

/-- the nouns used: first component at least `min_noun_score`, second at least `min_noun_frequency` -/
def UsedNoun (p : Josa.Params) (table : Dict Str (Rat × Rat)) (n : Str) : Prop :=
  ∃ a b, (n, (a, b)) ∈ table ∧ p.minNounScore ≤ a ∧ p.minNounFrequency ≤ b

private theorem mem_selectNouns {p : Josa.Params} {table : Dict Str (Rat × Rat)} {n : Str} : n ∈ Josa.selectNouns p table ↔ UsedNoun p table n := by
  unfold Josa.selectNouns UsedNoun
  rw [List.mem_map]
  constructor
  · rintro ⟨⟨n', a, b⟩, h, rfl⟩
    obtain ⟨h1, h2⟩ := List.mem_filter.1 h
    simp only [Bool.and_eq_true, decide_eq_true_eq] at h2
    exact ⟨a, b, h1, h2.1, h2.2⟩
  · rintro ⟨a, b, h, h1, h2⟩
    exact ⟨(n, (a, b)), List.mem_filter.2 ⟨h, by simp only [Bool.and_eq_true, decide_eq_true_eq]; exact ⟨h1, h2⟩⟩, rfl⟩

private theorem nj_iff (nouns : List Str) (posR : Str → Bool) (r : Str) :
    Josa.isNJ nouns posR r = true ↔ NounThenFeature nouns (fun x => posR x = true) r := by
  have key : ∀ (k n : Nat), k + n = r.length - 1 → (∀ j, 1 ≤ j → j ≤ k → r.take j ∉ nouns) →
      (Josa.isNJgo nouns posR r ((List.range' (k + 1) n)) = true ↔ NounThenFeature nouns (fun x => posR x = true) r) := by
    intro k n
    induction n generalizing k with
    | zero =>
      intro hk hno
      simp only [List.range'_zero, Josa.isNJgo, Bool.false_eq_true, false_iff]
      rintro ⟨u, v, rfl, hu, hv, hn, _⟩
      have h1 := List.length_pos_iff.2 hu
      have h2 := List.length_pos_iff.2 hv
      rw [List.length_append] at hk
      apply hno u.length (by omega) (by omega)
      rw [List.take_left]; exact hn
    | succ n ih =>
      intro hk hno
      rw [List.range'_succ]
      unfold Josa.isNJgo
      by_cases hc : r.take (k + 1) ∈ nouns
      · rw [if_pos (by simpa using hc)]
        constructor
        · intro hp
          refine ⟨r.take (k + 1), r.drop (k + 1), (List.take_append_drop _ _).symm, ?_, ?_, hc, ?_, hp⟩
          · intro e; have := congrArg List.length e; rw [List.length_take, List.length_nil] at this; omega
          · intro e; have := congrArg List.length e; rw [List.length_drop, List.length_nil] at this; omega
          · intro u' hu' hpre hn'
            by_contra hne
            have hl : u'.length ≤ k + 1 := by
              have := hpre.length_le; rw [List.length_take] at this; omega
            have he : u' = r.take u'.length := List.prefix_iff_eq_take.1 (hpre.trans (List.take_prefix _ _))
            rcases Nat.lt_or_ge u'.length (k + 1) with hlt | hge
            · have := List.length_pos_iff.2 hu'
              apply hno u'.length (by omega) (by omega)
              rw [← he]; exact hn'
            · apply hne
              rw [he]; congr 1; omega
        · rintro ⟨u, v, rfl, hu, hv, hn, hmin, hp⟩
          have hul := List.length_pos_iff.2 hu
          have hge : k + 1 ≤ u.length := by
            by_contra hlt
            apply hno u.length (by omega) (by omega)
            rw [List.take_left]; exact hn
          have hpre : (u ++ v).take (k + 1) <+: u := by
            rw [List.take_append_of_le_length hge]; exact List.take_prefix _ _
          have hne : (u ++ v).take (k + 1) ≠ [] := by
            intro e; have := congrArg List.length e; rw [List.length_take, List.length_nil, List.length_append] at this; omega
          have he := hmin _ hne hpre hc
          have hl := congrArg List.length he
          rw [List.length_take, List.length_append] at hl
          have : k + 1 = u.length := by omega
          rw [this, List.drop_left]; exact hp
      · rw [if_neg (by simpa using hc)]
        apply ih (k + 1) (by omega)
        intro j hj1 hj2
        rcases Nat.lt_or_ge j (k + 1) with h | h
        · exact hno j hj1 (by omega)
        · have : j = k + 1 := by omega
          subst this; exact hc
  unfold Josa.isNJ
  have e : (List.range (r.length - 1)).map (· + 1) = List.range' 1 (r.length - 1) := by
    rw [List.range_eq_range']
    have : (fun x : Nat => x + 1) = (fun x => 1 + x) := by funext x; omega
    rw [this, List.map_add_range']
  rw [e]
  exact key 0 (r.length - 1) (by omega) (by intro j h1 h2; omega)

private theorem reach_iff (nouns : List Str) (l r : Str) : Josa.existLongerNoun nouns l r = true ↔ ReachesInto nouns r l := by
  unfold Josa.existLongerNoun ReachesInto
  rw [List.any_eq_true]
  constructor
  · rintro ⟨i, hi, h⟩
    rw [List.mem_range] at hi
    refine ⟨r.take (i + 1), ?_, List.take_prefix _ _, by simpa using h⟩
    intro e; have := congrArg List.length e; rw [List.length_take, List.length_nil] at this; omega
  · rintro ⟨u, hu, ⟨v, rfl⟩, h⟩
    have := List.length_pos_iff.2 hu
    refine ⟨u.length - 1, ?_, ?_⟩
    · rw [List.mem_range, List.length_append]; omega
    · rw [Nat.sub_add_cancel (by omega), List.take_left]; simpa using h

private theorem tally_eq (nouns : List Str) (posR : Str → Bool) (r : Str) (f : List (Str × Int)) (hf : ∀ lc ∈ f, 1 < lc.1.length) :
    Josa.tally nouns posR r f = if Josa.isNJ nouns posR r = true then (0, totalOf f (fun _ => True), 0)
      else (totalOf f (fun l => l ∈ nouns ∧ ¬ ReachesInto nouns r l), totalOf f (ReachesInto nouns r),
        totalOf f (fun l => l ∉ nouns ∧ ¬ ReachesInto nouns r l)) := by
  classical
  unfold Josa.tally
  by_cases hnj : Josa.isNJ nouns posR r = true
  · rw [if_pos hnj]
    simp only [hnj, if_true]
    suffices h : ∀ a : Int × Int × Int, f.foldl (fun a lc => if lc.1.length ≤ 1 then a else (a.1, a.2.1 + lc.2, a.2.2)) a =
        (a.1, a.2.1 + totalOf f (fun _ => True), a.2.2) by
      rw [h]; simp
    induction f with
    | nil => intro a; simp [totalOf_nil]
    | cons lc f ih =>
      intro a
      have h1 : ¬ lc.1.length ≤ 1 := by have := hf lc (by simp); omega
      rw [List.foldl_cons, if_neg h1, ih (fun x hx => hf x (by simp [hx])), totalOf_cons]
      simp [add_assoc]
  · rw [if_neg hnj]
    simp only [hnj, Bool.false_eq_true, if_false]
    suffices h : ∀ a : Int × Int × Int, f.foldl (fun a lc => if lc.1.length ≤ 1 then a
        else if Josa.existLongerNoun nouns lc.1 r = true then (a.1, a.2.1 + lc.2, a.2.2)
        else if nouns.contains lc.1 = true then (a.1 + lc.2, a.2.1, a.2.2) else (a.1, a.2.1, a.2.2 + lc.2)) a =
        (a.1 + totalOf f (fun l => l ∈ nouns ∧ ¬ ReachesInto nouns r l), a.2.1 + totalOf f (ReachesInto nouns r),
         a.2.2 + totalOf f (fun l => l ∉ nouns ∧ ¬ ReachesInto nouns r l)) by
      have := h (0, 0, 0)
      simp only [zero_add] at this
      exact this
    induction f with
    | nil => intro a; simp [totalOf_nil]
    | cons lc f ih =>
      intro a
      have h1 : ¬ lc.1.length ≤ 1 := by have := hf lc (by simp); omega
      have hr := reach_iff nouns lc.1 r
      rw [List.foldl_cons, ih (fun x hx => hf x (by simp [hx])), totalOf_cons, totalOf_cons, totalOf_cons, if_neg h1]
      by_cases h2 : ReachesInto nouns r lc.1
      · simp [h2, hr.2 h2, add_assoc]
      · have h2' : ¬ Josa.existLongerNoun nouns lc.1 r = true := fun h => h2 (hr.1 h)
        by_cases h3 : lc.1 ∈ nouns
        · simp [h2, h2', h3, add_assoc]
        · simp [h2, h2', h3, add_assoc]

private theorem lastCounter_perm (f : List (Str × Int)) :
    (Josa.lastCounter f).length = (lastChars f).length ∧
    ((Josa.lastCounter f).map (·.2)).Perm ((lastChars f).map (fun ch => totalOf f (fun l => l.getLast? = ch))) := by
  classical
  have hw : Dict.WF (Josa.lastCounter f) := Dict.WF.foldl_addI f (fun lc => lc.1.getLast?) (fun lc => lc.2) Dict.wf_nil
  have hk : (Dict.keys (Josa.lastCounter f)).Perm (lastChars f) := by
    rw [List.perm_ext_iff_of_nodup hw (by unfold lastChars; exact List.nodup_dedup _)]
    intro ch
    unfold Josa.lastCounter lastChars
    rw [Dict.mem_keys_foldl_addI f (fun lc => lc.1.getLast?) (fun lc => lc.2), List.mem_dedup, List.mem_map]
    simp [Dict.keys]
  have hv : (Josa.lastCounter f).map (·.2) = (Dict.keys (Josa.lastCounter f)).map (fun ch => totalOf f (fun l => l.getLast? = ch)) := by
    unfold Dict.keys
    rw [List.map_map]
    apply List.map_congr_left
    rintro ⟨ch, v⟩ he
    have h1 : Dict.getD (Josa.lastCounter f) ch 0 = v := by
      show (Dict.get? _ _).getD 0 = v
      rw [Dict.get?_of_mem hw he]; rfl
    unfold Josa.lastCounter at h1
    rw [Dict.getD_foldl_addI f (fun lc => lc.1.getLast?) (fun lc => lc.2)] at h1
    have h0 : Dict.getD ([] : Dict (Option Char) Int) ch 0 = 0 := rfl
    rw [h0, Int.zero_add] at h1
    show v = totalOf f (fun l => l.getLast? = ch)
    rw [← h1]
    unfold totalOf
    congr 2
    apply List.filter_congr
    intro lc _
    exact decide_eq_decide.2 Iff.rfl
  refine ⟨?_, ?_⟩
  · have := hk.length_eq
    rw [← this]; unfold Dict.keys; rw [List.length_map]
  · rw [hv]; exact hk.map _

private theorem entropy_perm {a b : List Int} (h : a.Perm b) : countEntropy a = countEntropy b := by
  unfold countEntropy
  rw [h.sum_eq, (h.map _).sum_eq]

private theorem scoreOf_spec (p : Josa.Params) (hs : 0 < p.minPosScore) (t : Int × Int × Int) (S : Rat)
    (hS : (if t.1 + t.2.1 > 0 then ((t.1 - t.2.1 : Int) : Rat) / ((t.1 + t.2.1 : Int) : Rat) else 0) = S) :
    (p.minPosScore ≤ S → p.minPosFeatureFrequency ≤ t.1 → Josa.scoreOf p t = (S, t.1)) ∧
    (¬ (p.minPosScore ≤ S ∧ p.minPosFeatureFrequency ≤ t.1) → ¬ p.minPosScore ≤ (Josa.scoreOf p t).1) := by
  unfold Josa.scoreOf
  rw [hS]
  constructor
  · intro h1 h2
    dsimp only
    simp only [ge_iff_le, h1, if_true]
    rw [if_neg (not_lt.2 h2)]
  · intro h
    dsimp only
    by_cases h1 : p.minPosScore ≤ S
    · have h2 : t.1 < p.minPosFeatureFrequency := not_le.1 (fun h2 => h ⟨h1, h2⟩)
      simp only [ge_iff_le, h1, if_true, h2]
      exact not_le.2 hs
    · simp only [ge_iff_le, h1, if_false]
      split
      · exact not_le.2 hs
      · exact h1

private theorem verdict_iff (p : Josa.Params) (hs : 0 < p.minPosScore) (g : LR.State) (hg : Josa.Positive g) (nouns : List Str) (posR : Str → Bool) (r : Str)
    (entLt : List Int → Rat → Bool) (hent : ∀ cs x, entLt cs x = true ↔ countEntropy cs < (x : ℝ)) (score : Rat) (freq : Int) :
    Josa.verdict p entLt g nouns posR r = some (score, freq) ↔ Accepted p g nouns (fun x => posR x = true) r score freq := by
  have hrow : Josa.nounFeature g r = leftsOf g r := rfl
  have hlen : ∀ lc ∈ leftsOf g r, 1 < lc.1.length := fun lc h => by simpa using (List.mem_filter.1 h).2
  have hpos : ∀ lc ∈ leftsOf g r, 0 ≤ lc.2 := fun lc h => le_of_lt (hg r lc (List.mem_filter.1 h).1)
  obtain ⟨hl, hp⟩ := lastCounter_perm (leftsOf g r)
  have htally := tally_eq nouns posR r (leftsOf g r) hlen
  have hnj := nj_iff nouns posR r
  have n1 := totalOf_nonneg hpos (fun l => l ∈ nouns ∧ ¬ ReachesInto nouns r l)
  have n2 := totalOf_nonneg hpos (ReachesInto nouns r)
  have n3 := totalOf_nonneg hpos (fun _ => True)
  have hE : ∀ cs x, entLt cs x = false ↔ (x : ℝ) ≤ countEntropy cs := by
    intro cs x
    rw [← not_lt, ← hent]; simp
  unfold Josa.verdict
  rw [hrow]
  dsimp only
  rw [hl]
  by_cases hlow : ((lastChars (leftsOf g r)).length : Int) < p.minNumOfUniqueLastchar ∨
      entLt ((Josa.lastCounter (leftsOf g r)).map (·.2)) p.minEntropyOfLastchar = true
  · rw [if_pos hlow, if_neg (fun h => absurd h.1 (by dsimp only; intro hh; linarith))]
    constructor
    · intro h; cases h
    · intro h
      rcases hlow with hlow | hlow
      · have := h.unique; omega
      · rw [hent, entropy_perm hp] at hlow
        exact absurd h.entropy (not_le.2 hlow)
  · rw [if_neg hlow]
    have hu : p.minNumOfUniqueLastchar ≤ ((lastChars (leftsOf g r)).length : Int) := by
      by_contra h; exact hlow (Or.inl (by omega))
    have he : (p.minEntropyOfLastchar : ℝ) ≤ countEntropy ((lastChars (leftsOf g r)).map (fun ch => totalOf (leftsOf g r) (fun l => l.getLast? = ch))) := by
      rw [← entropy_perm hp, ← hE]
      by_contra h; exact hlow (Or.inr (by simpa using h))
    rw [htally]
    by_cases hn : Josa.isNJ nouns posR r = true
    · rw [if_pos hn]
      have hb : (if 0 + totalOf (leftsOf g r) (fun _ => True) > 0 then ((0 - totalOf (leftsOf g r) (fun _ => True) : Int) : Rat) / ((0 + totalOf (leftsOf g r) (fun _ => True) : Int) : Rat) else 0) ≤ 0 := by
        split
        · rename_i h
          have h' : (0 : Rat) < ((0 + totalOf (leftsOf g r) (fun _ => True) : Int) : Rat) := by exact_mod_cast h
          rw [div_le_iff₀ h']
          push_cast at h' ⊢
          linarith
        · exact le_refl _
      have := (scoreOf_spec p hs (0, totalOf (leftsOf g r) (fun _ => True), 0) _ rfl).2 (fun h => absurd (le_trans h.1 hb) (not_le.2 hs))
      rw [if_neg (fun h => this h.1)]
      constructor
      · intro h; cases h
      · intro h; exact absurd (hnj.1 hn) h.notNJ
    · rw [if_neg hn]
      have hn' : ¬ NounThenFeature nouns (fun x => posR x = true) r := fun h => hn (hnj.2 h)
      generalize hP : totalOf (leftsOf g r) (fun l => l ∈ nouns ∧ ¬ ReachesInto nouns r l) = P at *
      generalize hN : totalOf (leftsOf g r) (ReachesInto nouns r) = N at *
      generalize totalOf (leftsOf g r) (fun l => l ∉ nouns ∧ ¬ ReachesInto nouns r l) = U
      have hsc : (if P + N > 0 then ((P - N : Int) : Rat) / ((P + N : Int) : Rat) else 0) = ((P - N : Int) : Rat) / ((P + N : Int) : Rat) := by
        split
        · rfl
        · have : P + N = 0 := by omega
          rw [this]; simp
      obtain ⟨S, hS⟩ : ∃ S : Rat, ((P - N : Int) : Rat) / ((P + N : Int) : Rat) = S := ⟨_, rfl⟩
      obtain ⟨k1, k2⟩ := scoreOf_spec p hs (P, N, U) S (hsc.trans hS)
      by_cases hge : p.minPosScore ≤ S ∧ p.minPosFeatureFrequency ≤ P
      · rw [k1 hge.1 hge.2]
        constructor
        · intro h
          split at h
          · rename_i hc
            have hx := Option.some.inj h
            have e1 : S = score := congrArg Prod.fst hx
            have e2 : P = freq := congrArg Prod.snd hx
            subst e1; subst e2
            exact ⟨hn', hu, he, hP.symm, by rw [hN]; exact hS.symm, hge.1, hge.2, (hE _ _).1 hc.2.2⟩
          · cases h
        · intro h
          have e2 := h.freq_eq
          rw [hP] at e2
          have e1 := h.score_eq
          rw [hN, e2, hS] at e1
          rw [if_pos ⟨hge.1, hge.2, (hE _ _).2 h.nounEntropy⟩, e1, e2]
      · rw [if_neg (fun h => k2 hge h.1)]
        constructor
        · intro h; cases h
        · intro h
          have e2 := h.freq_eq
          rw [hP] at e2
          have e1 := h.score_eq
          rw [hN, e2, hS] at e1
          exact absurd ⟨e1 ▸ h.score_ge, e2 ▸ h.freq_ge⟩ hge

/-- C48: on a graph with positive counts and with a positive `min_pos_score` the search raises nothing, and what it returns
    is settled by the graph, the table and the thresholds alone, whatever the order in which sets are enumerated: exactly
    the right parts that are neither known nor ignored nor nouns, occur often enough after the nouns used, and meet the
    criteria, where a right part consisting of a noun and a known or newly found feature is no feature. -/
theorem C48_result (p : Josa.Params) (hs : 0 < p.minPosScore) (g : LR.State) (hi : LR.Inv g) (hpos : ∀ r, ∀ lc ∈ LR.getL g r (-1), 0 < lc.2)
    (entLt : List Int → Rat → Bool) (hent : ∀ cs x, entLt cs x = true ↔ countEntropy cs < (x : ℝ))
    (enum : List Str → List Str) (henum : ∀ l, (enum l).Perm l) (table : Dict Str (Rat × Rat)) (known ignored : List Str) :
    ∃ res nouns, Josa.extractDomainPosFeatures p entLt enum table g known ignored = .ok res ∧ (res.map (·.1)).Nodup ∧
      (∀ n, n ∈ nouns ↔ UsedNoun p table n) ∧ (Dict.WF table → nouns.Nodup) ∧
      ∀ r score freq, (r, (score, freq)) ∈ res ↔
        r ∉ known ∧ r ∉ ignored ∧ r ∉ nouns ∧ (∃ n ∈ nouns, (get2 g.lr n r).isSome = true) ∧
        p.minPosFeatureFrequency ≤ (nouns.map (fun n => (get2 g.lr n r).getD 0)).sum ∧
        Accepted p g nouns (fun x => x ∈ known ∨ x ∈ res.map (·.1)) r score freq := by
  obtain ⟨res, h1, h2, h3⟩ := Josa.extract_spec hi hpos p entLt enum henum table known ignored
  refine ⟨res, Josa.selectNouns p table, h1, h2, fun n => mem_selectNouns, ?_, ?_⟩
  · intro hw
    exact (List.filter_sublist.map _).nodup hw
  · intro r score freq
    rw [Dict.mem_iff_get? h2, h3]
    have hD : (fun x => (known.contains x || Dict.has res x) = true) = (fun x => x ∈ known ∨ x ∈ res.map (·.1)) := by
      funext x
      rw [Bool.or_eq_true, List.contains_iff_mem]
      apply propext
      have : Dict.has res x = true ↔ x ∈ res.map (·.1) := Dict.isSome_get?_iff res x
      rw [this]
    have hv := verdict_iff p hs g hpos (Josa.selectNouns p table) (fun x => known.contains x || Dict.has res x) r entLt hent score freq
    rw [hD] at hv
    constructor
    · intro h
      split at h
      · rename_i hc
        exact ⟨hc.1.1, hc.1.2.1, hc.2.2, hc.1.2.2, hc.2.1, hv.1 h⟩
      · cases h
    · rintro ⟨a, b, c, d, e, f⟩
      rw [if_pos ⟨⟨a, b, d⟩, e, c⟩]
      exact hv.2 f

/-- C48: the enumeration order of the set of nouns does not matter. -/
theorem C48_deterministic (p : Josa.Params) (g : LR.State) (hi : LR.Inv g) (hpos : ∀ r, ∀ lc ∈ LR.getL g r (-1), 0 < lc.2)
    (entLt : List Int → Rat → Bool) (enum enum' : List Str → List Str) (henum : ∀ l, (enum l).Perm l) (henum' : ∀ l, (enum' l).Perm l)
    (table : Dict Str (Rat × Rat)) (known ignored : List Str) :
    ∃ res res', Josa.extractDomainPosFeatures p entLt enum table g known ignored = .ok res ∧
      Josa.extractDomainPosFeatures p entLt enum' table g known ignored = .ok res' ∧ res.Perm res' := by
  obtain ⟨res, h1, h2, h3⟩ := Josa.extract_spec hi hpos p entLt enum henum table known ignored
  obtain ⟨res', h1', h2', h3'⟩ := Josa.extract_spec hi hpos p entLt enum' henum' table known ignored
  refine ⟨res, res', h1, h1', Dict.perm_of_get? h2 h2' ?_⟩
  intro r
  induction hn : r.length using Nat.strong_induction_on generalizing r with
  | _ n ih =>
    rw [h3, h3']
    rw [Josa.verdict_congr p entLt g _ (P := fun x => known.contains x || Dict.has res x) (Q := fun x => known.contains x || Dict.has res' x)]
    intro x hx
    have := ih x.length (by omega) x rfl
    have : Dict.has res x = Dict.has res' x := by
      show (Dict.get? res x).isSome = (Dict.get? res' x).isSome
      rw [this]
    rw [this]

/-- C48 (deviation): the table is read the wrong way round. With a table of (frequency, score) pairs with scores of at
    most 1, such as the extractor's own, any `min_noun_frequency` above 1 (the default is 100) selects no noun at all and
    nothing is found, in any graph. -/
theorem C48_swapped (p : Josa.Params) (hf : 1 < p.minNounFrequency) (g : LR.State) (entLt : List Int → Rat → Bool)
    (enum : List Str → List Str) (henum : ∀ l, (enum l).Perm l) (table : Dict Str (Rat × Rat)) (ht : ∀ n a b, (n, (a, b)) ∈ table → b ≤ 1)
    (known ignored : List Str) : Josa.extractDomainPosFeatures p entLt enum table g known ignored = .ok [] := by
  have hn : Josa.selectNouns p table = [] := by
    rw [List.eq_nil_iff_forall_not_mem]
    intro n h
    obtain ⟨a, b, hm, _, hb⟩ := mem_selectNouns.1 h
    have := ht n a b hm
    linarith
  have he : enum [] = [] := (henum []).eq_nil
  unfold Josa.extractDomainPosFeatures
  dsimp only
  rw [hn, he]
  rfl

private theorem union_nil (a : List Str) : V2.union a [] = a := by
  unfold V2.union V2.toSet; simp

private theorem append_nothing (F : V2.Features) : V2.appendFeatures F "pos".toList [] = .ok F := by
  unfold V2.appendFeatures
  rw [if_pos rfl]
  simp only [List.filter_nil, union_nil]

/-- C48 (deviation): on a trained graph the extractor's own search with any `min_noun_frequency` above 1 (the default is
    100) finds nothing, appends nothing, and leaves the graph as trained. -/
theorem C48_extractor (p : V2.Params) (entLt : List Int → Rat → Bool) (enum : Nat → List Str → List Str) (henum : ∀ i l, (enum i l).Perm l)
    (F : V2.Features) (E : List (Str × Int)) (g : LR.State) (hf : V2.Fresh E g) (candidates ignored : List Str) (hc : candidates.Nodup)
    (append : Bool) (jp : Josa.Params) (hj : 1 < jp.minNounFrequency) :
    V2.extractDomainPosFeatures p entLt enum F g candidates ignored append jp = .ok (F, g, []) := by
  unfold V2.extractDomainPosFeatures
  dsimp only
  generalize hcands : (if candidates = [] then Dict.keys (V2.nounCandidates g (enum 0 F.pos)) else candidates) = cands
  have hnd : cands.Nodup := by
    rw [← hcands]
    split
    · exact (V2.mem_nounCandidates hf.cons.inv (enum 0 F.pos)).1
    · exact hc
  obtain ⟨h1, h2, h3⟩ := V2.batch_spec hf.cons p F jp.minNounScore cands hnd
  have hreset : (LR.reset (V2.batchPredicting p F g cands jp.minNounScore).1).1 = g := by
    unfold V2.batchPredicting
    rw [V2.batchGo_state, V1.reset_claimAll _ hf.cons hf.origin hf.rl]
  have hnone := C48_swapped jp hj g entLt (enum 2) (henum 2) (V2.batchPredicting p F g cands jp.minNounScore).2 (by
    intro n a b hm
    have hn : n ∈ cands := (h2 n).1 (List.mem_map.2 ⟨_, hm, rfl⟩)
    have hx := h3 n hn
    rw [Dict.get?_of_mem h1 hm] at hx
    have hb := congrArg Prod.snd (Option.some.inj hx)
    dsimp only at hb
    rw [hb]
    exact (v2_row p F n (fun rc hrc => by
      unfold V2.freeRow at hrc
      have hmm := (List.mem_filter.1 hrc).1
      have := hf.cons.edge n rc.1 rc.2 ((LR.mem_getR_all hf.cons.inv).1 hmm)
      exact le_of_lt this.2.1) jp.minNounScore).2.2.2) F.pos ignored
  rw [hreset, hnone]
  dsimp only
  cases append
  · rfl
  · rw [if_pos rfl]
    show (V2.appendFeatures F "pos".toList []).map _ = _
    rw [append_nothing]; rfl

/-! ### concrete cases -/

private def jlr : Nested Str := [("학교".toList, [("에서".toList, 3)]), ("병원".toList, [("에서".toList, 2)]), ("가게".toList, [("에서".toList, 2)])]
private def jg : LR.State := { lr := jlr, rl := LR.reverse jlr }

/-- with the pairs the way the function reads them (score first) something is found … -/
example : Josa.extractDomainPosFeatures { minNounFrequency := 1, minPosFeatureFrequency := 2, minNumOfUniqueLastchar := 2 } (fun _ _ => false) id
    [("학교".toList, (1, 5)), ("병원".toList, (1, 5)), ("가게".toList, (1, 5))] jg [] = .ok [("에서".toList, (1, 7))] := by decide +kernel
/-- … with the extractor's own pairs nothing is -/
example : Josa.extractDomainPosFeatures { minNounFrequency := 2, minPosFeatureFrequency := 2, minNumOfUniqueLastchar := 2 } (fun _ _ => false) id
    [("학교".toList, (5, 1)), ("병원".toList, (5, 1)), ("가게".toList, (5, 1))] jg [] = .ok [] := by decide +kernel

end Props
