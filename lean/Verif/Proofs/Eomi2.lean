import Verif.Proofs.Eomi
import Mathlib.Tactic.FieldSimp
import Mathlib.Algebra.Order.Field.Rat
import Mathlib.Data.List.Nodup
import Mathlib.Algebra.BigOperators.Group.List.Basic
/-! Lemmas about `EomiExtractor`: the merge of the readings. -/
set_option linter.unusedSimpArgs false
namespace Eomi
open Py Nested

/-- one reading: the right part and left part, the stem and ending it is read as -/
abbrev Label := (Str × Str) × (Str × Str)

/-- one reading entered: its count and score are merged into the entry of its ending -/
def mstep (d : Dict Str (Int × Rat)) (u : Label × Int × Rat) : Dict Str (Int × Rat) :=
  Dict.set d u.1.2.2 (u.2.1 + (Dict.getD d u.1.2.2 (0, 0)).1,
    (u.2.2 * (u.2.1 : Rat) + (Dict.getD d u.1.2.2 (0, 0)).2 * ((Dict.getD d u.1.2.2 (0, 0)).1 : Rat)) / ((u.2.1 + (Dict.getD d u.1.2.2 (0, 0)).1 : Int) : Rat))

/-- the readings of an eojeol split -/
def readings (enum : List (Str × Str) → List (Str × Str)) (stems : List Str) (eomi : Str) (score0 : Rat) (lc : Str × Int) : List (Label × Int × Rat) :=
  match Lemma.lemmaCandidate lc.1 eomi with
  | .error _ => []
  | .ok cs => ((enum cs.dedup).filter (fun se => stems.contains se.1)).map (fun se => (((eomi, lc.1), se), lc.2, score0))

/-- the readings of all splits -/
def allReadings (enum : List (Str × Str) → List (Str × Str)) (stems : List Str) (g : LR.State) (eomis : Dict Str (Int × Rat)) : List (Label × Int × Rat) :=
  eomis.flatMap (fun e => (LR.getL g e.1 (-1)).flatMap (readings enum stems e.1 e.2.2))

/-- every entry has a positive frequency -/
def Positive (d : Dict Str (Int × Rat)) : Prop := ∀ y x, Dict.get? d y = some x → 0 < x.1

theorem getD_nonneg {d : Dict Str (Int × Rat)} (h : Positive d) (y : Str) : 0 ≤ (Dict.getD d y (0, 0)).1 := by
  show 0 ≤ ((Dict.get? d y).getD (0, 0)).1
  cases hx : Dict.get? d y with
  | none => exact Int.le_refl _
  | some x => exact Int.le_of_lt (h y x hx)

theorem positive_mstep {d : Dict Str (Int × Rat)} (h : Positive d) (u : Label × Int × Rat) (hu : 0 < u.2.1) : Positive (mstep d u) := by
  intro y x hx
  unfold mstep at hx
  rw [Dict.get?_set] at hx
  split at hx
  · have := Option.some.inj hx
    rw [← this]
    have := getD_nonneg h u.1.2.2
    dsimp only; omega
  · exact h y x hx

theorem mergeAll_eq (stems : List Str) (count : Int) (hc : 0 < count) (s : Rat) (r l : Str) (ps : List (Str × Str)) (d : Dict Str (Int × Rat)) (hd : Positive d) :
    mergeAll stems count s d ps = (((ps.filter (fun se => stems.contains se.1)).map (fun se => (((r, l), se), count, s)) : List (Label × Int × Rat))).foldl mstep d ∧
    Positive (mergeAll stems count s d ps) := by
  induction ps generalizing d with
  | nil => exact ⟨rfl, hd⟩
  | cons p ps ih =>
    obtain ⟨stem, eomi⟩ := p
    unfold mergeAll
    rw [List.filter_cons]
    by_cases hs : stems.contains stem = true
    · have hn : ¬ ((!stems.contains stem) = true) := by rw [hs]; decide
      rw [if_neg hn, if_pos (by exact hs)]
      unfold mergeScore
      have h0 := getD_nonneg hd eomi
      rw [if_neg (by omega)]
      dsimp only
      rw [List.map_cons, List.foldl_cons]
      exact ih _ (positive_mstep hd (((r, l), (stem, eomi)), count, s) hc)
    · have hn : (!stems.contains stem) = true := by simpa using hs
      rw [if_pos hn, if_neg (by exact hs)]
      exact ih d hd

theorem lemmatizeOne_eq (enum : List (Str × Str) → List (Str × Str)) (stems : List Str) (eomi : Str) (s : Rat) (d : Dict Str (Int × Rat)) (lc : Str × Int)
    (hc : 0 < lc.2) (hd : Positive d) : lemmatizeOne enum stems eomi s d lc = (readings enum stems eomi s lc).foldl mstep d ∧ Positive (lemmatizeOne enum stems eomi s d lc) := by
  unfold lemmatizeOne readings
  cases h : Lemma.lemmaCandidate lc.1 eomi with
  | error e => exact ⟨rfl, hd⟩
  | ok cs => exact mergeAll_eq stems lc.2 hc s eomi lc.1 _ d hd

theorem lemmatize_eq (enum : List (Str × Str) → List (Str × Str)) (stems : List Str) (g : LR.State) (hg : ∀ r, ∀ lc ∈ LR.getL g r (-1), 0 < lc.2) (eomis : Dict Str (Int × Rat)) :
    lemmatize enum stems g eomis = (allReadings enum stems g eomis).foldl mstep [] := by
  have row : ∀ (e : Str × Int × Rat) (ls : List (Str × Int)), (∀ lc ∈ ls, 0 < lc.2) → ∀ d, Positive d →
      ls.foldl (lemmatizeOne enum stems e.1 e.2.2) d = (ls.flatMap (readings enum stems e.1 e.2.2)).foldl mstep d ∧
      Positive (ls.foldl (lemmatizeOne enum stems e.1 e.2.2) d) := by
    intro e ls
    induction ls with
    | nil => intro _ d hd; exact ⟨rfl, hd⟩
    | cons lc ls ih =>
      intro h d hd
      obtain ⟨h1, h2⟩ := lemmatizeOne_eq enum stems e.1 e.2.2 d lc (h lc (by simp)) hd
      obtain ⟨h3, h4⟩ := ih (fun x hx => h x (by simp [hx])) _ h2
      rw [List.foldl_cons, List.flatMap_cons, List.foldl_append]
      exact ⟨by rw [h3, h1], h4⟩
  have main : ∀ (es : List (Str × Int × Rat)) d, Positive d →
      es.foldl (fun d e => (LR.getL g e.1 (-1)).foldl (lemmatizeOne enum stems e.1 e.2.2) d) d =
        (es.flatMap (fun e => (LR.getL g e.1 (-1)).flatMap (readings enum stems e.1 e.2.2))).foldl mstep d := by
    intro es
    induction es with
    | nil => intro d _; rfl
    | cons e es ih =>
      intro d hd
      obtain ⟨h1, h2⟩ := row e _ (hg e.1) d hd
      rw [List.foldl_cons, List.flatMap_cons, List.foldl_append, ih _ h2, h1]
  exact main eomis [] (by intro y x h; cases h)

/-- what the merge adds up to -/
theorem mstep_spec (L : List (Label × Int × Rat)) (hL : ∀ u ∈ L, 0 < u.2.1) (d : Dict Str (Int × Rat)) (hw : d.WF) (hd : Positive d) :
    (L.foldl mstep d).WF ∧ Positive (L.foldl mstep d) ∧
    ∀ y, (y ∈ Dict.keys (L.foldl mstep d) ↔ y ∈ Dict.keys d ∨ ∃ u ∈ L, u.1.2.2 = y) ∧
      (Dict.getD (L.foldl mstep d) y (0, 0)).1 = (Dict.getD d y (0, 0)).1 + ((L.filter (fun u => decide (u.1.2.2 = y))).map (fun u => u.2.1)).sum ∧
      (Dict.getD (L.foldl mstep d) y (0, 0)).2 * ((Dict.getD (L.foldl mstep d) y (0, 0)).1 : Rat) =
        (Dict.getD d y (0, 0)).2 * ((Dict.getD d y (0, 0)).1 : Rat) + ((L.filter (fun u => decide (u.1.2.2 = y))).map (fun u => u.2.2 * (u.2.1 : Rat))).sum := by
  induction L generalizing d with
  | nil => exact ⟨hw, hd, fun y => ⟨by simp, by simp, by simp⟩⟩
  | cons u L ih =>
    have hu := hL u (by simp)
    have hw' : (mstep d u).WF := hw.set _ _
    obtain ⟨h1, h2, h3⟩ := ih (fun x hx => hL x (by simp [hx])) (mstep d u) hw' (positive_mstep hd u hu)
    rw [List.foldl_cons]
    refine ⟨h1, h2, fun y => ?_⟩
    obtain ⟨a, b, c⟩ := h3 y
    have hg : Dict.getD (mstep d u) y (0, 0) = if u.1.2.2 = y then (u.2.1 + (Dict.getD d u.1.2.2 (0, 0)).1,
        (u.2.2 * (u.2.1 : Rat) + (Dict.getD d u.1.2.2 (0, 0)).2 * ((Dict.getD d u.1.2.2 (0, 0)).1 : Rat)) / ((u.2.1 + (Dict.getD d u.1.2.2 (0, 0)).1 : Int) : Rat))
        else Dict.getD d y (0, 0) := by
      unfold mstep
      show (Dict.get? (Dict.set d _ _) y).getD (0, 0) = _
      rw [Dict.get?_set]
      by_cases h : u.1.2.2 = y
      · rw [if_pos h, if_pos h, Option.getD_some]
      · rw [if_neg h, if_neg h]
    refine ⟨?_, ?_, ?_⟩
    · rw [a]
      unfold mstep
      rw [Dict.mem_keys_set]
      simp only [List.mem_cons, exists_eq_or_imp]
      constructor
      · rintro ((h | h) | h)
        · exact .inr (.inl h.symm)
        · exact .inl h
        · exact .inr (.inr h)
      · rintro (h | h | h)
        · exact .inl (.inr h)
        · exact .inl (.inl h.symm)
        · exact .inr h
    · rw [b, hg, List.filter_cons]
      by_cases h : u.1.2.2 = y
      · subst h
        rw [if_pos rfl, if_pos (by simp), List.map_cons, List.sum_cons]
        omega
      · rw [if_neg h, if_neg (by simpa using h)]
    · rw [c, hg, List.filter_cons]
      by_cases h : u.1.2.2 = y
      · subst h
        rw [if_pos rfl, if_pos (by simp), List.map_cons, List.sum_cons]
        dsimp only
        have h0 := getD_nonneg hd u.1.2.2
        have hne : (((u.2.1 + (Dict.getD d u.1.2.2 (0, 0)).1 : Int)) : Rat) ≠ 0 := by
          rw [Ne, Int.cast_eq_zero]; omega
        rw [div_mul_cancel₀ _ hne]
        ring
      · rw [if_neg h, if_neg (by simpa using h)]

theorem nodup_allReadings (enum : List (Str × Str) → List (Str × Str)) (henum : ∀ l, (enum l).Perm l) (stems : List Str) {g : LR.State} (hg : LR.Inv g)
    {eomis : Dict Str (Int × Rat)} (hw : eomis.WF) : (allReadings enum stems g eomis).Nodup := by
  have hr : ∀ r s lc, (readings enum stems r s lc).Nodup ∧ ∀ u ∈ readings enum stems r s lc, u.1.1 = (r, lc.1) := by
    intro r s lc
    unfold readings
    cases h : Lemma.lemmaCandidate lc.1 r with
    | error e => exact ⟨List.nodup_nil, by simp⟩
    | ok cs =>
      dsimp only
      constructor
      · refine List.Nodup.map ?_ (List.Nodup.filter _ ((henum _).nodup_iff.2 (List.nodup_dedup cs)))
        intro a b hab
        exact congrArg (fun u : Label × Int × Rat => u.1.2) hab
      · intro u hu
        obtain ⟨se, _, rfl⟩ := List.mem_map.1 hu
        rfl
  unfold allReadings
  rw [List.nodup_flatMap]
  constructor
  · intro e _
    rw [List.nodup_flatMap]
    constructor
    · intro lc _; exact (hr _ _ _).1
    · have := LR.getL_all_nodup hg e.1
      rw [List.nodup_iff_pairwise_ne, List.pairwise_map] at this
      refine this.imp ?_
      intro a b hab u hu hu'
      have h1 := (hr _ _ _).2 u hu
      have h2 := (hr _ _ _).2 u hu'
      rw [h1] at h2
      exact hab (congrArg Prod.snd h2)
  · have : (Dict.keys eomis).Nodup := hw
    unfold Dict.keys at this
    rw [List.nodup_iff_pairwise_ne, List.pairwise_map] at this
    refine this.imp ?_
    intro a b hab u hu hu'
    obtain ⟨lc, _, hu⟩ := List.mem_flatMap.1 hu
    obtain ⟨lc', _, hu'⟩ := List.mem_flatMap.1 hu'
    have h1 := (hr _ _ _).2 u hu
    have h2 := (hr _ _ _).2 u hu'
    rw [h1] at h2
    exact hab (Prod.mk.inj h2).1

theorem mem_allReadings (enum : List (Str × Str) → List (Str × Str)) (henum : ∀ l, (enum l).Perm l) (stems : List Str) {g : LR.State} (hg : LR.Inv g)
    {eomis : Dict Str (Int × Rat)} (hw : eomis.WF) (r l stem y : Str) (n : Int) (s : Rat) :
    (((r, l), (stem, y)), n, s) ∈ allReadings enum stems g eomis ↔
      (∃ f, Dict.get? eomis r = some (f, s)) ∧ r ≠ [] ∧ get2 g.lr l r = some n ∧ stem ∈ stems ∧ ∃ cs, Lemma.lemmaCandidate l r = .ok cs ∧ (stem, y) ∈ cs := by
  unfold allReadings
  simp only [List.mem_flatMap]
  constructor
  · rintro ⟨⟨r', f, s'⟩, he, ⟨l', n'⟩, hl, hu⟩
    dsimp only at *
    unfold readings at hu
    cases h : Lemma.lemmaCandidate l' r' with
    | error e => rw [h] at hu; simp at hu
    | ok cs =>
      rw [h] at hu
      dsimp only at hu
      obtain ⟨se, hse, e⟩ := List.mem_map.1 hu
      have e1 : r' = r := congrArg (fun u : Label × Int × Rat => u.1.1.1) e
      have e2 : l' = l := congrArg (fun u : Label × Int × Rat => u.1.1.2) e
      have e3 : se = (stem, y) := congrArg (fun u : Label × Int × Rat => u.1.2) e
      have e4 : n' = n := congrArg (fun u : Label × Int × Rat => u.2.1) e
      have e5 : s' = s := congrArg (fun u : Label × Int × Rat => u.2.2) e
      subst e1; subst e2; subst e3; subst e4; subst e5
      obtain ⟨h1, h2⟩ := List.mem_filter.1 hse
      obtain ⟨h3, h4⟩ := (LR.mem_getL_all hg).1 hl
      exact ⟨⟨f, Dict.get?_of_mem hw he⟩, h3, h4, by simpa using h2, cs, h, List.mem_dedup.1 ((henum _).mem_iff.1 h1)⟩
  · rintro ⟨⟨f, hf⟩, hr, hl, hs, cs, hc, hm⟩
    refine ⟨(r, f, s), Dict.mem_of_get? hf, (l, n), (LR.mem_getL_all hg).2 ⟨hr, hl⟩, ?_⟩
    unfold readings
    dsimp only
    rw [hc]
    dsimp only
    refine List.mem_map.2 ⟨(stem, y), List.mem_filter.2 ⟨(henum _).mem_iff.2 (List.mem_dedup.2 hm), ?_⟩, rfl⟩
    simpa using hs

end Eomi
