import Verif.Model.Stem
import Verif.Proofs.Eomi
import Verif.Py.DictInt
import Mathlib.Tactic.FieldSimp
import Mathlib.Tactic.Ring
import Mathlib.Tactic.Linarith
import Mathlib.Algebra.Order.Field.Rat
import Mathlib.Data.List.Nodup
import Mathlib.Algebra.BigOperators.Group.List.Basic
/-! Lemmas about `StemExtractor`. -/
set_option linter.unusedSimpArgs false
namespace Stem
open Py Nested

/-! ### the merge -/

/-- one reading: left and right part, the stem and ending it is read as -/
abbrev Label := (Str × Str) × (Str × Str)

/-- one reading entered -/
def mstep (d : Dict Str (Rat × Rat)) (u : Label × Rat × Rat) : Dict Str (Rat × Rat) :=
  Dict.set d u.1.2.1 (u.2.1 + (Dict.getD d u.1.2.1 (0, 0)).1,
    (u.2.2 * u.2.1 + (Dict.getD d u.1.2.1 (0, 0)).2 * (Dict.getD d u.1.2.1 (0, 0)).1) / (u.2.1 + (Dict.getD d u.1.2.1 (0, 0)).1))

/-- the readings of an eojeol split -/
def readings (enum : List (Str × Str) → List (Str × Str)) (eomis : List Str) (f0 s0 : Rat) (l : Str) (rc : Str × Int) : List (Label × Rat × Rat) :=
  match Lemma.lemmaCandidate l rc.1 with
  | .error _ => []
  | .ok cs => ((enum cs.dedup).filter (fun se => !eomis.contains se.2)).map (fun se => (((l, rc.1), se), f0, s0))

/-- the readings of all splits -/
def allReadings (enum : List (Str × Str) → List (Str × Str)) (eomis : List Str) (g : LR.State) (surfaces : Dict Str (Rat × Int)) : List (Label × Rat × Rat) :=
  surfaces.flatMap (fun e => (LR.getR g e.1 (-1)).flatMap (readings enum eomis e.2.1 ((e.2.2 : Int) : Rat) e.1))

/-- every entry has a positive first component -/
def Positive (d : Dict Str (Rat × Rat)) : Prop := ∀ y x, Dict.get? d y = some x → 0 < x.1

theorem getD_nonneg {d : Dict Str (Rat × Rat)} (h : Positive d) (y : Str) : 0 ≤ (Dict.getD d y (0, 0)).1 := by
  show 0 ≤ ((Dict.get? d y).getD (0, 0)).1
  cases hx : Dict.get? d y with
  | none => exact le_refl _
  | some x => exact le_of_lt (h y x hx)

theorem positive_mstep {d : Dict Str (Rat × Rat)} (h : Positive d) (u : Label × Rat × Rat) (hu : 0 < u.2.1) : Positive (mstep d u) := by
  intro y x hx
  unfold mstep at hx
  rw [Dict.get?_set] at hx
  split at hx
  · have := Option.some.inj hx
    rw [← this]
    have := getD_nonneg h u.1.2.1
    dsimp only; linarith
  · exact h y x hx

theorem mergeAll_eq (eomis : List Str) (f0 : Rat) (hc : 0 < f0) (s0 : Rat) (l r : Str) (ps : List (Str × Str)) (d : Dict Str (Rat × Rat)) (hd : Positive d) :
    mergeAll eomis f0 s0 d ps = (((ps.filter (fun se => !eomis.contains se.2)).map (fun se => (((l, r), se), f0, s0)) : List (Label × Rat × Rat))).foldl mstep d ∧
    Positive (mergeAll eomis f0 s0 d ps) := by
  induction ps generalizing d with
  | nil => exact ⟨rfl, hd⟩
  | cons p ps ih =>
    obtain ⟨stem, eomi⟩ := p
    unfold mergeAll
    rw [List.filter_cons]
    by_cases hs : eomis.contains eomi = true
    · have hn : ¬ ((!eomis.contains eomi) = true) := by rw [hs]; decide
      rw [if_pos hs, if_neg (by exact hn)]
      exact ih d hd
    · have hn : (!eomis.contains eomi) = true := by simpa using hs
      rw [if_neg hs, if_pos (by exact hn)]
      unfold mergeScore
      have h0 := getD_nonneg hd stem
      rw [if_neg (by intro h; linarith)]
      dsimp only
      rw [List.map_cons, List.foldl_cons]
      exact ih _ (positive_mstep hd (((l, r), (stem, eomi)), f0, s0) hc)

theorem toStemOne_eq (enum : List (Str × Str) → List (Str × Str)) (eomis : List Str) (f0 s0 : Rat) (l : Str) (d : Dict Str (Rat × Rat)) (rc : Str × Int)
    (hc : 0 < f0) (hd : Positive d) : toStemOne enum eomis f0 s0 l d rc = (readings enum eomis f0 s0 l rc).foldl mstep d ∧ Positive (toStemOne enum eomis f0 s0 l d rc) := by
  unfold toStemOne readings
  cases h : Lemma.lemmaCandidate l rc.1 with
  | error e => exact ⟨rfl, hd⟩
  | ok cs => exact mergeAll_eq eomis f0 hc s0 l rc.1 _ d hd

theorem toStem_eq (enum : List (Str × Str) → List (Str × Str)) (s : State) (surfaces : Dict Str (Rat × Int)) (hs : ∀ e ∈ surfaces, 0 < e.2.1) :
    toStem enum s surfaces = (allReadings enum s.eomis s.lrgraph surfaces).foldl mstep [] := by
  have row : ∀ (e : Str × Rat × Int), 0 < e.2.1 → ∀ (ls : List (Str × Int)) d, Positive d →
      ls.foldl (toStemOne enum s.eomis e.2.1 ((e.2.2 : Int) : Rat) e.1) d = (ls.flatMap (readings enum s.eomis e.2.1 ((e.2.2 : Int) : Rat) e.1)).foldl mstep d ∧
      Positive (ls.foldl (toStemOne enum s.eomis e.2.1 ((e.2.2 : Int) : Rat) e.1) d) := by
    intro e he ls
    induction ls with
    | nil => intro d hd; exact ⟨rfl, hd⟩
    | cons lc ls ih =>
      intro d hd
      obtain ⟨h1, h2⟩ := toStemOne_eq enum s.eomis e.2.1 ((e.2.2 : Int) : Rat) e.1 d lc he hd
      obtain ⟨h3, h4⟩ := ih _ h2
      rw [List.foldl_cons, List.flatMap_cons, List.foldl_append]
      exact ⟨by rw [h3, h1], h4⟩
  have main : ∀ (es : List (Str × Rat × Int)), (∀ e ∈ es, 0 < e.2.1) → ∀ d, Positive d →
      es.foldl (fun d e => (LR.getR s.lrgraph e.1 (-1)).foldl (toStemOne enum s.eomis e.2.1 ((e.2.2 : Int) : Rat) e.1) d) d =
        (es.flatMap (fun e => (LR.getR s.lrgraph e.1 (-1)).flatMap (readings enum s.eomis e.2.1 ((e.2.2 : Int) : Rat) e.1))).foldl mstep d := by
    intro es
    induction es with
    | nil => intro _ d _; rfl
    | cons e es ih =>
      intro he d hd
      obtain ⟨h1, h2⟩ := row e (he e (by simp)) (LR.getR s.lrgraph e.1 (-1)) d hd
      rw [List.foldl_cons, List.flatMap_cons, List.foldl_append, ih (fun x hx => he x (by simp [hx])) _ h2, h1]
  exact main surfaces hs [] (by intro y x h; cases h)

/-- what the merge adds up to -/
theorem mstep_spec (L : List (Label × Rat × Rat)) (hL : ∀ u ∈ L, 0 < u.2.1) (d : Dict Str (Rat × Rat)) (hw : d.WF) (hd : Positive d) :
    (L.foldl mstep d).WF ∧ Positive (L.foldl mstep d) ∧
    ∀ y, (y ∈ Dict.keys (L.foldl mstep d) ↔ y ∈ Dict.keys d ∨ ∃ u ∈ L, u.1.2.1 = y) ∧
      (Dict.getD (L.foldl mstep d) y (0, 0)).1 = (Dict.getD d y (0, 0)).1 + ((L.filter (fun u => decide (u.1.2.1 = y))).map (fun u => u.2.1)).sum ∧
      (Dict.getD (L.foldl mstep d) y (0, 0)).2 * (Dict.getD (L.foldl mstep d) y (0, 0)).1 =
        (Dict.getD d y (0, 0)).2 * (Dict.getD d y (0, 0)).1 + ((L.filter (fun u => decide (u.1.2.1 = y))).map (fun u => u.2.2 * u.2.1)).sum := by
  induction L generalizing d with
  | nil => exact ⟨hw, hd, fun y => ⟨by simp, by simp, by simp⟩⟩
  | cons u L ih =>
    have hu := hL u (by simp)
    have hw' : (mstep d u).WF := hw.set _ _
    obtain ⟨h1, h2, h3⟩ := ih (fun x hx => hL x (by simp [hx])) (mstep d u) hw' (positive_mstep hd u hu)
    rw [List.foldl_cons]
    refine ⟨h1, h2, fun y => ?_⟩
    obtain ⟨a, b, c⟩ := h3 y
    have hg : Dict.getD (mstep d u) y (0, 0) = if u.1.2.1 = y then (u.2.1 + (Dict.getD d u.1.2.1 (0, 0)).1,
        (u.2.2 * u.2.1 + (Dict.getD d u.1.2.1 (0, 0)).2 * (Dict.getD d u.1.2.1 (0, 0)).1) / (u.2.1 + (Dict.getD d u.1.2.1 (0, 0)).1))
        else Dict.getD d y (0, 0) := by
      unfold mstep
      show (Dict.get? (Dict.set d _ _) y).getD (0, 0) = _
      rw [Dict.get?_set]
      by_cases h : u.1.2.1 = y
      · rw [if_pos h, if_pos h, Option.getD_some]
      · rw [if_neg h, if_neg h]
    refine ⟨?_, ?_, ?_⟩
    · rw [a]
      unfold mstep
      rw [Dict.mem_keys_set]
      simp only [List.mem_cons, exists_eq_or_imp]
      constructor
      · rintro ((h | h) | h)
        · exact .inr (.inl h.symm)
        · exact .inl h
        · exact .inr (.inr h)
      · rintro (h | h | h)
        · exact .inl (.inr h)
        · exact .inl (.inl h.symm)
        · exact .inr h
    · rw [b, hg, List.filter_cons]
      by_cases h : u.1.2.1 = y
      · subst h
        rw [if_pos rfl, if_pos (by simp), List.map_cons, List.sum_cons]
        ring
      · rw [if_neg h, if_neg (by simpa using h)]
    · rw [c, hg, List.filter_cons]
      by_cases h : u.1.2.1 = y
      · subst h
        rw [if_pos rfl, if_pos (by simp), List.map_cons, List.sum_cons]
        dsimp only
        have h0 := getD_nonneg hd u.1.2.1
        have hne : u.2.1 + (Dict.getD d u.1.2.1 (0, 0)).1 ≠ 0 := by
          intro h; linarith
        rw [div_mul_cancel₀ _ hne]
        ring
      · rw [if_neg h, if_neg (by simpa using h)]

theorem nodup_allReadings (enum : List (Str × Str) → List (Str × Str)) (henum : ∀ l, (enum l).Perm l) (eomis : List Str) {g : LR.State} (hg : LR.Inv g)
    {surfaces : Dict Str (Rat × Int)} (hw : surfaces.WF) : (allReadings enum eomis g surfaces).Nodup := by
  have hr : ∀ f0 s0 l rc, (readings enum eomis f0 s0 l rc).Nodup ∧ ∀ u ∈ readings enum eomis f0 s0 l rc, u.1.1 = (l, rc.1) := by
    intro f0 s0 l rc
    unfold readings
    cases h : Lemma.lemmaCandidate l rc.1 with
    | error e => exact ⟨List.nodup_nil, by simp⟩
    | ok cs =>
      dsimp only
      constructor
      · refine List.Nodup.map ?_ (List.Nodup.filter _ ((henum _).nodup_iff.2 (List.nodup_dedup cs)))
        intro a b hab
        exact congrArg (fun u : Label × Rat × Rat => u.1.2) hab
      · intro u hu
        obtain ⟨se, _, rfl⟩ := List.mem_map.1 hu
        rfl
  unfold allReadings
  rw [List.nodup_flatMap]
  constructor
  · intro e _
    rw [List.nodup_flatMap]
    constructor
    · intro lc _; exact (hr _ _ _ _).1
    · have := LR.getR_all_nodup hg e.1
      rw [List.nodup_iff_pairwise_ne, List.pairwise_map] at this
      refine this.imp ?_
      intro a b hab u hu hu'
      have h1 := (hr _ _ _ _).2 u hu
      have h2 := (hr _ _ _ _).2 u hu'
      rw [h1] at h2
      exact hab (congrArg Prod.snd h2)
  · have : (Dict.keys surfaces).Nodup := hw
    unfold Dict.keys at this
    rw [List.nodup_iff_pairwise_ne, List.pairwise_map] at this
    refine this.imp ?_
    intro a b hab u hu hu'
    obtain ⟨lc, _, hu⟩ := List.mem_flatMap.1 hu
    obtain ⟨lc', _, hu'⟩ := List.mem_flatMap.1 hu'
    have h1 := (hr _ _ _ _).2 u hu
    have h2 := (hr _ _ _ _).2 u hu'
    rw [h1] at h2
    exact hab (Prod.mk.inj h2).1

theorem mem_allReadings (enum : List (Str × Str) → List (Str × Str)) (henum : ∀ l, (enum l).Perm l) (eomis : List Str) {g : LR.State} (hg : LR.Inv g)
    {surfaces : Dict Str (Rat × Int)} (hw : surfaces.WF) (l r stem y : Str) (f0 s0 : Rat) :
    (((l, r), (stem, y)), f0, s0) ∈ allReadings enum eomis g surfaces ↔
      (∃ f : Int, Dict.get? surfaces l = some (f0, f) ∧ s0 = (f : Rat)) ∧ (∃ n, get2 g.lr l r = some n) ∧ y ∉ eomis ∧
        ∃ cs, Lemma.lemmaCandidate l r = .ok cs ∧ (stem, y) ∈ cs := by
  unfold allReadings
  simp only [List.mem_flatMap]
  constructor
  · rintro ⟨⟨l', f, f1⟩, he, ⟨r', n'⟩, hl, hu⟩
    dsimp only at *
    unfold readings at hu
    cases h : Lemma.lemmaCandidate l' r' with
    | error e => rw [h] at hu; simp at hu
    | ok cs =>
      rw [h] at hu
      dsimp only at hu
      obtain ⟨se, hse, e⟩ := List.mem_map.1 hu
      have e1 : l' = l := congrArg (fun u : Label × Rat × Rat => u.1.1.1) e
      have e2 : r' = r := congrArg (fun u : Label × Rat × Rat => u.1.1.2) e
      have e3 : se = (stem, y) := congrArg (fun u : Label × Rat × Rat => u.1.2) e
      have e4 : f = f0 := congrArg (fun u : Label × Rat × Rat => u.2.1) e
      have e5 : (f1 : Rat) = s0 := congrArg (fun u : Label × Rat × Rat => u.2.2) e
      subst e1; subst e2; subst e3; subst e4
      obtain ⟨h1, h2⟩ := List.mem_filter.1 hse
      exact ⟨⟨f1, Dict.get?_of_mem hw he, e5.symm⟩, ⟨n', (LR.mem_getR_all hg).1 hl⟩, by simpa using h2, cs, h, List.mem_dedup.1 ((henum _).mem_iff.1 h1)⟩
  · rintro ⟨⟨f, hf, rfl⟩, ⟨n, hn⟩, hs, cs, hc, hm⟩
    refine ⟨(l, f0, f), Dict.mem_of_get? hf, (r, n), (LR.mem_getR_all hg).2 hn, ?_⟩
    unfold readings
    dsimp only
    rw [hc]
    dsimp only
    refine List.mem_map.2 ⟨(stem, y), List.mem_filter.2 ⟨(henum _).mem_iff.2 (List.mem_dedup.2 hm), ?_⟩, rfl⟩
    simpa using hs

/-- whatever the scores: a stem that is reported is read from some surface with an ending that is not known -/
theorem keys_toStem (enumL : List (Str × Str) → List (Str × Str)) (henum : ∀ l, (enumL l).Perm l) (s : State) (hg : LR.Inv s.lrgraph)
    {surfaces : Dict Str (Rat × Int)} (hw : surfaces.WF) (y : Str) (h : y ∈ Dict.keys (toStem enumL s surfaces)) :
    ∃ l r eomi t f n, Dict.get? surfaces l = some (t, f) ∧ get2 s.lrgraph.lr l r = some n ∧ eomi ∉ s.eomis ∧
      ∃ cs, Lemma.lemmaCandidate l r = .ok cs ∧ (y, eomi) ∈ cs := by
  have hm : ∀ (cs : List (Str × Str)) (f0 s0 : Rat) (d : Dict Str (Rat × Rat)), y ∈ Dict.keys (mergeAll s.eomis f0 s0 d cs) →
      y ∈ Dict.keys d ∨ ∃ eomi, eomi ∉ s.eomis ∧ (y, eomi) ∈ cs := by
    intro cs f0 s0
    induction cs with
    | nil => intro d h; exact .inl h
    | cons c cs ih =>
      obtain ⟨stem, eomi⟩ := c
      intro d h
      rw [mergeAll] at h
      by_cases hc : s.eomis.contains eomi = true
      · rw [if_pos hc] at h
        rcases ih d h with h | ⟨e, h1, h2⟩
        · exact .inl h
        · exact .inr ⟨e, h1, List.mem_cons_of_mem _ h2⟩
      · rw [if_neg hc] at h
        cases hx : mergeScore f0 s0 (Dict.getD d stem (0, 0)) with
        | error e => rw [hx] at h; exact .inl h
        | ok x =>
          rw [hx] at h
          rcases ih _ h with h | ⟨e, h1, h2⟩
          · by_cases he : y = stem
            · exact .inr ⟨eomi, by simpa using hc, by rw [he]; exact List.mem_cons_self⟩
            · left
              rw [← Dict.isSome_get?_iff, Dict.get?_set, if_neg (by exact fun h => he h.symm)] at h
              exact (Dict.isSome_get?_iff _ _).1 h
          · exact .inr ⟨e, h1, List.mem_cons_of_mem _ h2⟩
  have hrow : ∀ (row : List (Str × Int)) (t : Rat) (f : Int) (l : Str) (d : Dict Str (Rat × Rat)),
      y ∈ Dict.keys (row.foldl (toStemOne enumL s.eomis t ((f : Int) : Rat) l) d) →
      y ∈ Dict.keys d ∨ ∃ rc ∈ row, ∃ eomi, eomi ∉ s.eomis ∧ ∃ cs, Lemma.lemmaCandidate l rc.1 = .ok cs ∧ (y, eomi) ∈ cs := by
    intro row t f l
    induction row with
    | nil => intro d h; exact .inl h
    | cons rc row ih =>
      intro d h
      rw [List.foldl_cons] at h
      rcases ih _ h with h | ⟨rc', h1, h2⟩
      · unfold toStemOne at h
        cases hx : Lemma.lemmaCandidate l rc.1 with
        | error e => rw [hx] at h; exact .inl h
        | ok cs =>
          rw [hx] at h
          rcases hm _ _ _ _ h with h | ⟨eomi, h1, h2⟩
          · exact .inl h
          · exact .inr ⟨rc, List.mem_cons_self, eomi, h1, cs, hx, List.mem_dedup.1 ((henum _).mem_iff.1 h2)⟩
      · exact .inr ⟨rc', List.mem_cons_of_mem _ h1, h2⟩
  have hall : ∀ (es : List (Str × Rat × Int)) (d : Dict Str (Rat × Rat)),
      y ∈ Dict.keys (es.foldl (fun d e => (LR.getR s.lrgraph e.1 (-1)).foldl (toStemOne enumL s.eomis e.2.1 ((e.2.2 : Int) : Rat) e.1) d) d) →
      y ∈ Dict.keys d ∨ ∃ e ∈ es, ∃ rc ∈ LR.getR s.lrgraph e.1 (-1), ∃ eomi, eomi ∉ s.eomis ∧ ∃ cs, Lemma.lemmaCandidate e.1 rc.1 = .ok cs ∧ (y, eomi) ∈ cs := by
    intro es
    induction es with
    | nil => intro d h; exact .inl h
    | cons e es ih =>
      intro d h
      rw [List.foldl_cons] at h
      rcases ih _ h with h | ⟨e', h1, h2⟩
      · rcases hrow _ _ _ _ _ h with h | h
        · exact .inl h
        · exact .inr ⟨e, List.mem_cons_self, h⟩
      · exact .inr ⟨e', List.mem_cons_of_mem _ h1, h2⟩
  rcases hall surfaces [] h with h | ⟨⟨l, t, f⟩, h1, ⟨r, n⟩, h2, eomi, h3, cs, h4, h5⟩
  · cases h
  · exact ⟨l, r, eomi, t, f, n, Dict.get?_of_mem hw h1, (LR.mem_getR_all hg).1 h2, h3, cs, h4, h5⟩

/-! ### the candidates -/

/-- the entries the candidates are counted from -/
def units (g : LR.State) (rs : List Str) : List (Str × Str × Int) := rs.flatMap (fun r => (LR.getL g r (-1)).map (fun lc => (r, lc)))

theorem candidates_eq (s : State) (ignore rs : List Str) :
    candidates s ignore rs = ((units s.lrgraph rs).filter (fun u => !(s.L.contains u.2.1 || ignore.contains u.2.1))).foldl (fun d u => Dict.addI d u.2.1 u.2.2) [] := by
  unfold candidates units
  generalize ([] : Dict Str Int) = d
  induction rs generalizing d with
  | nil => rfl
  | cons r rs ih =>
    rw [List.foldl_cons, ih, List.flatMap_cons, List.filter_append, List.foldl_append]
    congr 1
    generalize LR.getL s.lrgraph r (-1) = ls
    induction ls generalizing d with
    | nil => rfl
    | cons lc ls ih2 =>
      rw [List.foldl_cons, ih2, List.map_cons, List.filter_cons]
      by_cases h : (s.L.contains lc.1 || ignore.contains lc.1) = true
      · rw [if_pos h, if_neg (by dsimp only; rw [h]; decide)]
      · rw [if_neg h, if_pos (by simpa using h), List.foldl_cons]

theorem nodup_units {g : LR.State} (hg : LR.Inv g) {rs : List Str} (h : rs.Nodup) : (units g rs).Nodup := by
  unfold units
  rw [List.nodup_flatMap]
  constructor
  · intro r _
    exact List.Nodup.map (fun a b h => congrArg Prod.snd h) (List.Nodup.of_map _ (LR.getL_all_nodup hg r))
  · rw [List.nodup_iff_pairwise_ne] at h
    refine h.imp ?_
    intro a b hab u hu hu'
    obtain ⟨x, _, rfl⟩ := List.mem_map.1 hu
    obtain ⟨y, _, e⟩ := List.mem_map.1 hu'
    exact hab (congrArg Prod.fst e).symm

theorem mem_units {g : LR.State} (hg : LR.Inv g) {rs : List Str} {r l : Str} {n : Int} :
    (r, l, n) ∈ units g rs ↔ r ∈ rs ∧ r ≠ [] ∧ get2 g.lr l r = some n := by
  unfold units
  rw [List.mem_flatMap]
  constructor
  · rintro ⟨r', h1, h2⟩
    obtain ⟨⟨l', n'⟩, h3, e⟩ := List.mem_map.1 h2
    have e1 := congrArg Prod.fst e
    have e2 := congrArg Prod.snd e
    dsimp only at e1 e2
    subst e1
    rw [e2] at h3
    exact ⟨h1, (LR.mem_getL_all hg).1 h3⟩
  · rintro ⟨h1, h2⟩
    exact ⟨r, h1, List.mem_map.2 ⟨(l, n), (LR.mem_getL_all hg).2 h2, rfl⟩⟩

/-! ### the batch -/

theorem get?_batchGo (entLt : List Int → Rat → Bool) (s : State) (minScore : Rat) (minFreq : Int) (ls : List Str) (hnd : ls.Nodup) (d : Dict Str (Rat × Int))
    (hd : ∀ l ∈ ls, Dict.get? d l = none) (l : Str) (x : Rat × Int) :
    Dict.get? (batchGo entLt s minScore minFreq d ls) l = some x ↔ Dict.get? d l = some x ∨
      l ∈ ls ∧ skipped s l = false ∧ x = predict entLt s l minScore minFreq ∧ minScore ≤ x.1 ∧ minFreq ≤ x.2 := by
  induction ls generalizing d with
  | nil => simp [batchGo]
  | cons a ls ih =>
    obtain ⟨ha, hnd⟩ := List.nodup_cons.1 hnd
    have hno : Dict.has d a = false := by
      unfold Dict.has; rw [hd a (by simp)]; rfl
    unfold batchGo
    by_cases hs : skipped s a = true
    · rw [if_pos (by rw [hs]; rfl), ih hnd d (fun b hb => hd b (by simp [hb]))]
      constructor
      · rintro (h | h)
        · exact .inl h
        · exact .inr ⟨by simp [h.1], h.2⟩
      · rintro (h | h)
        · exact .inl h
        · rcases List.mem_cons.1 h.1 with rfl | h1
          · rw [hs] at h; exact absurd h.2.1 (by decide)
          · exact .inr ⟨h1, h.2⟩
    · rw [if_neg (by rw [hno, Bool.or_false]; exact hs)]
      dsimp only
      by_cases hx : (predict entLt s a minScore minFreq).1 < minScore ∨ (predict entLt s a minScore minFreq).2 < minFreq
      · rw [if_pos hx, ih hnd d (fun b hb => hd b (by simp [hb]))]
        constructor
        · rintro (h | h)
          · exact .inl h
          · exact .inr ⟨by simp [h.1], h.2⟩
        · rintro (h | h)
          · exact .inl h
          · rcases List.mem_cons.1 h.1 with rfl | h1
            · obtain ⟨_, _, rfl, h4, h5⟩ := h
              rcases hx with hx | hx
              · exact absurd h4 (not_le.2 hx)
              · omega
            · exact .inr ⟨h1, h.2⟩
      · rw [if_neg hx, ih hnd _ (by
          intro b hb
          rw [Dict.get?_set, if_neg (by rintro rfl; exact ha hb)]
          exact hd b (by simp [hb])), Dict.get?_set]
        have hx1 : minScore ≤ (predict entLt s a minScore minFreq).1 := not_lt.1 (fun h => hx (.inl h))
        have hx2 : minFreq ≤ (predict entLt s a minScore minFreq).2 := Int.not_lt.1 (fun h => hx (.inr h))
        by_cases hl : a = l
        · subst hl
          rw [if_pos rfl, hd a (by simp)]
          constructor
          · rintro (h | h)
            · have := Option.some.inj h
              subst this
              exact .inr ⟨by simp, by simpa using hs, rfl, hx1, hx2⟩
            · exact absurd h.1 ha
          · rintro (h | h)
            · cases h
            · rw [h.2.2.1]; exact .inl rfl
        · rw [if_neg hl]
          constructor
          · rintro (h | h)
            · exact .inl h
            · exact .inr ⟨by simp [h.1], h.2⟩
          · rintro (h | h)
            · exact .inl h
            · rcases List.mem_cons.1 h.1 with rfl | h1
              · exact absurd rfl hl
              · exact .inr ⟨h1, h.2⟩

theorem batchGo_wf (entLt : List Int → Rat → Bool) (s : State) (minScore : Rat) (minFreq : Int) (ls : List Str) (d : Dict Str (Rat × Int)) (hd : d.WF) :
    (batchGo entLt s minScore minFreq d ls).WF := by
  induction ls generalizing d with
  | nil => exact hd
  | cons a ls ih =>
    unfold batchGo
    split
    · exact ih d hd
    · dsimp only
      split
      · exact ih d hd
      · exact ih _ (hd.set _ _)

end Stem
