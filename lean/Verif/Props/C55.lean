import Verif.Model.NounV1
import Verif.Model.NounV2
import Mathlib.Algebra.Order.Field.Rat
/-! C55: the predictor files of the noun extractors. -/
set_option linter.unusedSimpArgs false
namespace Props
open Py Nested

/-! ### LRNounExtractor_v2 -/

/-- the text `f` stands, up to surrounding blanks, on a line of one of the files -/
def Listed (files : List (Option (List Str))) (f : Str) : Prop := ∃ lines, some lines ∈ files ∧ ∃ line ∈ lines, strip line = f

private theorem mem_listed (files : List (Option (List Str))) (f : Str) :
    f ∈ V2.toSet (files.flatMap (fun h => (h.getD []).map strip)) ↔ Listed files f := by
  unfold V2.toSet Listed
  rw [List.mem_dedup, List.mem_flatMap]
  constructor
  · rintro ⟨o, ho, hm⟩
    obtain ⟨line, hl, rfl⟩ := List.mem_map.1 hm
    cases o with
    | none => simp at hl
    | some lines => exact ⟨lines, ho, line, hl, rfl⟩
  · rintro ⟨lines, ho, line, hl, rfl⟩
    exact ⟨some lines, ho, List.mem_map.2 ⟨line, hl, rfl⟩⟩

/-- C55 (v2): loading predictors raises when one of the files is missing. Otherwise the positive features are those listed in
    some positive file and no negative file, the negative ones the other way round, the common ones those listed in both: no
    feature is in two of the sets, and none is lost. -/
theorem C55_v2_load (headers : List (Option (List Str) × Option (List Str))) :
    ((none ∈ headers.map (·.1) ∨ none ∈ headers.map (·.2)) → V2.loadPredictor headers = .error .osError) ∧
    (none ∉ headers.map (·.1) → none ∉ headers.map (·.2) → ∃ F, V2.loadPredictor headers = .ok F ∧
      (∀ f, f ∈ F.pos ↔ Listed (headers.map (·.1)) f ∧ ¬ Listed (headers.map (·.2)) f) ∧
      (∀ f, f ∈ F.neg ↔ Listed (headers.map (·.2)) f ∧ ¬ Listed (headers.map (·.1)) f) ∧
      (∀ f, f ∈ F.common ↔ Listed (headers.map (·.1)) f ∧ Listed (headers.map (·.2)) f) ∧
      F.pos.Nodup ∧ F.neg.Nodup ∧ F.common.Nodup) := by
  have hany : headers.any (fun h => h.1.isNone || h.2.isNone) = true ↔ none ∈ headers.map (·.1) ∨ none ∈ headers.map (·.2) := by
    rw [List.any_eq_true]
    simp only [Bool.or_eq_true, Option.isNone_iff_eq_none, List.mem_map]
    constructor
    · rintro ⟨h, hm, h1 | h1⟩
      · exact Or.inl ⟨h, hm, h1⟩
      · exact Or.inr ⟨h, hm, h1⟩
    · rintro (⟨h, hm, h1⟩ | ⟨h, hm, h1⟩)
      · exact ⟨h, hm, Or.inl h1⟩
      · exact ⟨h, hm, Or.inr h1⟩
  constructor
  · intro h
    unfold V2.loadPredictor
    rw [if_pos (hany.2 h)]
  · intro h1 h2
    unfold V2.loadPredictor
    rw [if_neg (fun h => (hany.1 h).elim h1 h2)]
    refine ⟨_, rfl, ?_⟩
    dsimp only
    have hP : ∀ f, f ∈ V2.toSet (headers.flatMap (fun h => (h.1.getD []).map strip)) ↔ Listed (headers.map (·.1)) f := by
      intro f
      rw [← mem_listed, List.flatMap_map]
    have hN : ∀ f, f ∈ V2.toSet (headers.flatMap (fun h => (h.2.getD []).map strip)) ↔ Listed (headers.map (·.2)) f := by
      intro f
      rw [← mem_listed, List.flatMap_map]
    have hPn : (V2.toSet (headers.flatMap (fun h => (h.1.getD []).map strip))).Nodup := List.nodup_dedup _
    have hNn : (V2.toSet (headers.flatMap (fun h => (h.2.getD []).map strip))).Nodup := List.nodup_dedup _
    generalize V2.toSet (headers.flatMap (fun h => (h.1.getD []).map strip)) = P at *
    generalize V2.toSet (headers.flatMap (fun h => (h.2.getD []).map strip)) = N at *
    have hC : ∀ f, f ∈ P.filter (fun f => N.contains f) ↔ Listed (headers.map (·.1)) f ∧ Listed (headers.map (·.2)) f := by
      intro f
      rw [List.mem_filter, hP, List.contains_iff_mem, hN]
    refine ⟨?_, ?_, hC, hPn.filter _, hNn.filter _, hPn.filter _⟩
    · intro f
      rw [List.mem_filter, hP]
      simp only [Bool.not_eq_true', ← Bool.not_eq_true, List.contains_iff_mem, hC]
      constructor
      · rintro ⟨a, b⟩; exact ⟨a, fun c => b ⟨a, c⟩⟩
      · rintro ⟨a, b⟩; exact ⟨a, fun c => b c.2⟩
    · intro f
      rw [List.mem_filter, hN]
      simp only [Bool.not_eq_true', ← Bool.not_eq_true, List.contains_iff_mem, hC]
      constructor
      · rintro ⟨a, b⟩; exact ⟨a, fun c => b ⟨c, a⟩⟩
      · rintro ⟨a, b⟩; exact ⟨a, fun c => b c.1⟩

private theorem mem_union (a b : List Str) (f : Str) : f ∈ V2.union a b ↔ f ∈ a ∨ f ∈ b := by
  unfold V2.union V2.toSet
  rw [List.mem_append, List.mem_filter, List.mem_dedup]
  simp only [Bool.not_eq_true', ← Bool.not_eq_true, List.contains_iff_mem]
  constructor
  · rintro (h | ⟨h, _⟩)
    · exact Or.inl h
    · exact Or.inr h
  · rintro (h | h)
    · exact Or.inl h
    · by_cases ha : f ∈ a
      · exact Or.inl ha
      · exact Or.inr ⟨h, ha⟩

private theorem mem_not (fs q : List Str) (f : Str) :
    f ∈ fs.filter (fun f => !(fs.filter (fun f => q.contains f)).contains f) ↔ f ∈ fs ∧ f ∉ q := by
  rw [List.mem_filter]
  simp only [Bool.not_eq_true', ← Bool.not_eq_true, List.contains_iff_mem, List.mem_filter]
  constructor
  · rintro ⟨a, b⟩; exact ⟨a, fun c => b ⟨a, c⟩⟩
  · rintro ⟨a, b⟩; exact ⟨a, fun c => b c.2⟩

/-- C55 (v2): appending features. New positive features become positive unless they are negative, in which case they become
    common as well (they stay negative); new negative features likewise; new common features become common (and stay what
    they were). Any other type raises ValueError. -/
theorem C55_v2_append (F : V2.Features) (fs : List Str) :
    (∃ G, V2.appendFeatures F "pos".toList fs = .ok G ∧ (∀ f, f ∈ G.pos ↔ f ∈ F.pos ∨ (f ∈ fs ∧ f ∉ F.neg)) ∧
      (∀ f, f ∈ G.common ↔ f ∈ F.common ∨ (f ∈ fs ∧ f ∈ F.neg)) ∧ G.neg = F.neg) ∧
    (∃ G, V2.appendFeatures F "neg".toList fs = .ok G ∧ (∀ f, f ∈ G.neg ↔ f ∈ F.neg ∨ (f ∈ fs ∧ f ∉ F.pos)) ∧
      (∀ f, f ∈ G.common ↔ f ∈ F.common ∨ (f ∈ fs ∧ f ∈ F.pos)) ∧ G.pos = F.pos) ∧
    (∃ G, V2.appendFeatures F "common".toList fs = .ok G ∧ (∀ f, f ∈ G.common ↔ f ∈ F.common ∨ f ∈ fs) ∧ G.pos = F.pos ∧ G.neg = F.neg) ∧
    (∀ t, t ≠ "pos".toList → t ≠ "neg".toList → t ≠ "common".toList → V2.appendFeatures F t fs = .error .valueError) := by
  refine ⟨⟨_, rfl, ?_, ?_, rfl⟩, ⟨_, rfl, ?_, ?_, rfl⟩, ⟨_, rfl, ?_, rfl, rfl⟩, ?_⟩
  · intro f; dsimp only; rw [mem_union, mem_not]
  · intro f; dsimp only; rw [mem_union, List.mem_filter, List.contains_iff_mem]
  · intro f; dsimp only; rw [mem_union, mem_not]
  · intro f; dsimp only; rw [mem_union, List.mem_filter, List.contains_iff_mem]
  · intro f; dsimp only; rw [mem_union]
  · intro t h1 h2 h3
    unfold V2.appendFeatures
    rw [if_neg h1, if_neg h2, if_neg h3]

/-- C55 (v2): so appending features no two sets can share keeps the three sets disjoint, and appending a positive feature
    that is negative (or common) does not: it is in two sets then. -/
theorem C55_v2_disjoint (F : V2.Features) (fs : List Str)
    (hd : ∀ f, ¬ (f ∈ F.pos ∧ f ∈ F.neg) ∧ ¬ (f ∈ F.pos ∧ f ∈ F.common) ∧ ¬ (f ∈ F.neg ∧ f ∈ F.common)) :
    ∃ G, V2.appendFeatures F "pos".toList fs = .ok G ∧ (∀ f, ¬ (f ∈ G.pos ∧ f ∈ G.neg)) ∧
      ((∀ f, ¬ (f ∈ G.pos ∧ f ∈ G.common) ∧ ¬ (f ∈ G.neg ∧ f ∈ G.common)) ↔ ∀ f ∈ fs, f ∉ F.neg ∧ f ∉ F.common) := by
  obtain ⟨⟨G, h1, h2, h3, h4⟩, _⟩ := C55_v2_append F fs
  refine ⟨G, h1, ?_, ?_⟩
  · intro f
    rw [h2, h4]
    rintro ⟨a | a, b⟩
    · exact (hd f).1 ⟨a, b⟩
    · exact a.2 b
  · constructor
    · intro h f hf
      constructor
      · intro hn
        exact (h f).2 ⟨h4 ▸ hn, (h3 f).2 (Or.inr ⟨hf, hn⟩)⟩
      · intro hc
        have hn : f ∉ F.neg := fun hn => (hd f).2.2 ⟨hn, hc⟩
        exact (h f).1 ⟨(h2 f).2 (Or.inr ⟨hf, hn⟩), (h3 f).2 (Or.inl hc)⟩
    · intro h f
      rw [h2, h3, h4]
      constructor
      · rintro ⟨a | a, b | b⟩
        · exact (hd f).2.1 ⟨a, b⟩
        · exact (hd f).1 ⟨a, b.2⟩
        · exact (h f a.1).2 b
        · exact a.2 b.2
      · rintro ⟨a, b | b⟩
        · exact (hd f).2.2 ⟨a, b⟩
        · exact (h f b.1).1 a

/-- C55 (v2): the same for negative features, and for common ones. -/
theorem C55_v2_disjoint_others (F : V2.Features) (fs : List Str)
    (hd : ∀ f, ¬ (f ∈ F.pos ∧ f ∈ F.neg) ∧ ¬ (f ∈ F.pos ∧ f ∈ F.common) ∧ ¬ (f ∈ F.neg ∧ f ∈ F.common)) :
    (∃ G, V2.appendFeatures F "neg".toList fs = .ok G ∧ (∀ f, ¬ (f ∈ G.pos ∧ f ∈ G.neg)) ∧
      ((∀ f, ¬ (f ∈ G.pos ∧ f ∈ G.common) ∧ ¬ (f ∈ G.neg ∧ f ∈ G.common)) ↔ ∀ f ∈ fs, f ∉ F.pos ∧ f ∉ F.common)) ∧
    (∃ G, V2.appendFeatures F "common".toList fs = .ok G ∧ (∀ f, ¬ (f ∈ G.pos ∧ f ∈ G.neg)) ∧
      ((∀ f, ¬ (f ∈ G.pos ∧ f ∈ G.common) ∧ ¬ (f ∈ G.neg ∧ f ∈ G.common)) ↔ ∀ f ∈ fs, f ∉ F.pos ∧ f ∉ F.neg)) := by
  obtain ⟨_, ⟨G, h1, h2, h3, h4⟩, ⟨H, k1, k2, k3, k4⟩, _⟩ := C55_v2_append F fs
  refine ⟨⟨G, h1, ?_, ?_⟩, ⟨H, k1, ?_, ?_⟩⟩
  · intro f
    rw [h2, h4]
    rintro ⟨b, a | a⟩
    · exact (hd f).1 ⟨b, a⟩
    · exact a.2 b
  · constructor
    · intro h f hf
      constructor
      · intro hn
        exact (h f).1 ⟨h4 ▸ hn, (h3 f).2 (Or.inr ⟨hf, hn⟩)⟩
      · intro hc
        have hn : f ∉ F.pos := fun hn => (hd f).2.1 ⟨hn, hc⟩
        exact (h f).2 ⟨(h2 f).2 (Or.inr ⟨hf, hn⟩), (h3 f).2 (Or.inl hc)⟩
    · intro h f
      rw [h2, h3, h4]
      constructor
      · rintro ⟨a, b | b⟩
        · exact (hd f).2.1 ⟨a, b⟩
        · exact (h f b.1).1 a
      · rintro ⟨a | a, b | b⟩
        · exact (hd f).2.2 ⟨a, b⟩
        · exact (hd f).1 ⟨b.2, a⟩
        · exact (h f a.1).2 b
        · exact a.2 b.2
  · intro f
    rw [k3, k4]; exact (hd f).1
  · constructor
    · intro h f hf
      exact ⟨fun hn => (h f).1 ⟨k3 ▸ hn, (k2 f).2 (Or.inr hf)⟩, fun hn => (h f).2 ⟨k4 ▸ hn, (k2 f).2 (Or.inr hf)⟩⟩
    · intro h f
      rw [k2, k3, k4]
      constructor
      · rintro ⟨a, b | b⟩
        · exact (hd f).2.1 ⟨a, b⟩
        · exact (h f b).1 a
      · rintro ⟨a, b | b⟩
        · exact (hd f).2.2 ⟨a, b⟩
        · exact (h f b).2 a


/-! ### LRNounExtractor -/

/-- the line is `r`, a tab and a number `x` (and surrounding blanks), without further tabs -/
def Says (parseFloat : Str → Option Rat) (line r : Str) (x : Rat) : Prop :=
  ∃ s, strip line = r ++ '\t' :: s ∧ '\t' ∉ r ∧ '\t' ∉ s ∧ parseFloat s = some x

/-- some readable file gives `r` the score `x`, on a line before which every line is well-formed -/
def Gives (parseFloat : Str → Option Rat) (files : List (Option (List Str))) (r : Str) (x : Rat) : Prop :=
  ∃ before line after, some (before ++ line :: after) ∈ files ∧ (∀ l ∈ before, ∃ r' x', Says parseFloat l r' x') ∧ Says parseFloat line r x

private theorem splitOnGo_none (sep : Char) (cur s : Str) (h : sep ∉ s) : splitOnGo sep cur s = [cur ++ s] := by
  induction s generalizing cur with
  | nil => simp [splitOnGo]
  | cons c s ih =>
    simp only [List.mem_cons, not_or] at h
    rw [splitOnGo, if_neg (fun e => h.1 e.symm), ih _ h.2]
    simp

private theorem splitOnGo_one (sep : Char) (cur a b : Str) (h : sep ∉ a) : splitOnGo sep cur (a ++ sep :: b) = (cur ++ a) :: splitOnGo sep [] b := by
  induction a generalizing cur with
  | nil => simp [splitOnGo]
  | cons c a ih =>
    simp only [List.mem_cons, not_or] at h
    rw [List.cons_append, splitOnGo, if_neg (fun e => h.1 e.symm), ih _ h.2]
    simp

private theorem first_sep (sep : Char) (s : Str) (h : sep ∈ s) : ∃ a b, s = a ++ sep :: b ∧ sep ∉ a := by
  induction s with
  | nil => simp at h
  | cons c s ih =>
    by_cases hc : c = sep
    · exact ⟨[], s, by simp [hc], by simp⟩
    · obtain ⟨a, b, rfl, hb⟩ := ih (by simpa [Ne.symm hc] using h)
      exact ⟨c :: a, b, rfl, by simp [Ne.symm hc, hb]⟩

private theorem parseLine_iff (pf : Str → Option Rat) (line r : Str) (x : Rat) : V1.parseLine pf line = some (r, x) ↔ Says pf line r x := by
  unfold V1.parseLine Says
  generalize strip line = t
  by_cases h : '\t' ∈ t
  · obtain ⟨a, b, rfl, ha⟩ := first_sep _ _ h
    by_cases hb : '\t' ∈ b
    · obtain ⟨b1, b2, rfl, hb1⟩ := first_sep _ _ hb
      have : ∃ q qs, splitOnGo '\t' [] b2 = q :: qs := by
        cases hq : splitOnGo '\t' [] b2 with
        | nil =>
          exfalso
          by_cases hh : '\t' ∈ b2
          · obtain ⟨x, y, rfl, hx⟩ := first_sep _ _ hh
            rw [splitOnGo_one _ _ _ _ hx] at hq; cases hq
          · rw [splitOnGo_none _ _ _ hh] at hq; cases hq
        | cons q qs => exact ⟨q, qs, rfl⟩
      obtain ⟨q, qs, hq⟩ := this
      have e : splitOn '\t' (a ++ '\t' :: (b1 ++ '\t' :: b2)) = a :: b1 :: q :: qs := by
        unfold splitOn
        rw [splitOnGo_one _ _ _ _ ha, splitOnGo_one _ _ _ _ hb1, hq]
        simp
      rw [e]
      constructor
      · intro h; cases h
      · rintro ⟨s, hs, h1, h2, _⟩
        exfalso
        have e1 : splitOn '\t' (r ++ '\t' :: s) = [r, s] := by
          unfold splitOn
          rw [splitOnGo_one _ _ _ _ h1, splitOnGo_none _ _ _ h2]; simp
        rw [← hs, e] at e1
        have := congrArg List.length e1
        simp at this
    · have e : splitOn '\t' (a ++ '\t' :: b) = [a, b] := by
        unfold splitOn
        rw [splitOnGo_one _ _ _ _ ha, splitOnGo_none _ _ _ hb]; simp
      rw [e]
      dsimp only
      constructor
      · intro h
        cases hp : pf b with
        | none => rw [hp] at h; cases h
        | some y =>
          rw [hp] at h
          have := Option.some.inj h
          have e1 := congrArg Prod.fst this
          have e2 := congrArg Prod.snd this
          dsimp only at e1 e2
          subst e1 e2
          exact ⟨b, rfl, ha, hb, hp⟩
      · rintro ⟨s, hs, h1, h2, h3⟩
        have e1 : splitOn '\t' (r ++ '\t' :: s) = [r, s] := by
          unfold splitOn
          rw [splitOnGo_one _ _ _ _ h1, splitOnGo_none _ _ _ h2]; simp
        rw [← hs, e] at e1
        have e2 : a = r := by have := congrArg List.head? e1; simpa using this
        have e3 : b = s := by have := congrArg (fun l => l.getLast?) e1; simpa using this
        rw [e2, e3, h3]; rfl
  · have e : splitOn '\t' t = [t] := by unfold splitOn; rw [splitOnGo_none _ _ _ h]; simp
    rw [e]
    constructor
    · intro h; cases h
    · rintro ⟨s, rfl, _⟩
      exact absurd (by simp) h

/-- the table holds for every word the largest of the scores in `G` -/
private structure MaxOf (d : Dict Str Rat) (G : Str → Rat → Prop) : Prop where
  wf : d.WF
  upper : ∀ r x, G r x → ∃ y, Dict.get? d r = some y ∧ x ≤ y
  attained : ∀ r y, Dict.get? d r = some y → G r y

private theorem maxOf_add {d : Dict Str Rat} {G : Str → Rat → Prop} (h : MaxOf d G) (r : Str) (x : Rat) :
    MaxOf (V1.addCoefficient d r x) (fun r' x' => G r' x' ∨ (r' = r ∧ x' = x)) := by
  unfold V1.addCoefficient
  cases hg : Dict.get? d r with
  | none =>
    dsimp only
    refine ⟨h.wf.set _ _, ?_, ?_⟩
    · rintro r' x' (hG | ⟨rfl, rfl⟩)
      · obtain ⟨y, hy, hle⟩ := h.upper r' x' hG
        have hne : r ≠ r' := by rintro rfl; rw [hg] at hy; cases hy
        exact ⟨y, by rw [Dict.get?_set, if_neg hne]; exact hy, hle⟩
      · exact ⟨x', by rw [Dict.get?_set, if_pos rfl], le_refl _⟩
    · intro r' y hy
      rw [Dict.get?_set] at hy
      by_cases hr : r = r'
      · rw [if_pos hr] at hy
        exact Or.inr ⟨hr.symm, (Option.some.inj hy).symm⟩
      · rw [if_neg hr] at hy
        exact Or.inl (h.attained _ _ hy)
  | some z =>
    dsimp only
    have hz := h.attained _ _ hg
    refine ⟨h.wf.set _ _, ?_, ?_⟩
    · rintro r' x' (hG | ⟨rfl, rfl⟩)
      · obtain ⟨y, hy, hle⟩ := h.upper r' x' hG
        by_cases hr : r = r'
        · subst hr
          rw [hg] at hy
          have e := Option.some.inj hy
          subst e
          refine ⟨_, by rw [Dict.get?_set, if_pos rfl], ?_⟩
          split
          · rename_i hgt; exact le_trans hle (le_of_lt hgt)
          · exact hle
        · exact ⟨y, by rw [Dict.get?_set, if_neg hr]; exact hy, hle⟩
      · refine ⟨_, by rw [Dict.get?_set, if_pos rfl], ?_⟩
        split
        · exact le_refl _
        · rename_i hgt; exact not_lt.1 hgt
    · intro r' y hy
      rw [Dict.get?_set] at hy
      by_cases hr : r = r'
      · rw [if_pos hr] at hy
        have := Option.some.inj hy
        subst hr
        split at this
        · exact Or.inr ⟨rfl, this.symm⟩
        · subst this; exact Or.inl hz
      · rw [if_neg hr] at hy
        exact Or.inl (h.attained _ _ hy)

private theorem MaxOf.congr {d : Dict Str Rat} {G H : Str → Rat → Prop} (h : MaxOf d G) (e : ∀ r x, G r x ↔ H r x) : MaxOf d H :=
  ⟨h.wf, fun r x hx => h.upper r x ((e r x).2 hx), fun r y hy => (e r y).1 (h.attained r y hy)⟩

private def GivesIn (pf : Str → Option Rat) (lines : List Str) (r : Str) (x : Rat) : Prop :=
  ∃ before line after, lines = before ++ line :: after ∧ (∀ l ∈ before, ∃ r' x', Says pf l r' x') ∧ Says pf line r x

private theorem says_unique {pf : Str → Option Rat} {line r r' : Str} {x x' : Rat} (h : Says pf line r x) (h' : Says pf line r' x') : r = r' ∧ x = x' := by
  rw [← parseLine_iff] at h h'
  rw [h] at h'
  have := Option.some.inj h'
  exact ⟨congrArg Prod.fst this, congrArg Prod.snd this⟩

private theorem maxOf_lines (pf : Str → Option Rat) (lines : List Str) (d : Dict Str Rat) (G : Str → Rat → Prop) (h : MaxOf d G) :
    MaxOf (V1.loadLines pf d lines) (fun r x => G r x ∨ GivesIn pf lines r x) := by
  induction lines generalizing d G with
  | nil =>
    refine h.congr (fun r x => ⟨Or.inl, ?_⟩)
    rintro (h | ⟨b, l, a, e, _⟩)
    · exact h
    · simp at e
  | cons line lines ih =>
    unfold V1.loadLines
    cases hp : V1.parseLine pf line with
    | none =>
      dsimp only
      refine h.congr (fun r x => ⟨Or.inl, ?_⟩)
      rintro (h | ⟨b, l, a, e, hb, hs⟩)
      · exact h
      · cases b with
        | nil =>
          have e1 := List.head_eq_of_cons_eq e
          subst e1
          rw [← parseLine_iff, hp] at hs; cases hs
        | cons b0 b =>
          have e1 := List.head_eq_of_cons_eq e
          subst e1
          obtain ⟨r', x', hs'⟩ := hb line (by simp)
          rw [← parseLine_iff, hp] at hs'; cases hs'
    | some rx =>
      obtain ⟨r0, x0⟩ := rx
      dsimp only
      have hs0 := (parseLine_iff _ _ _ _).1 hp
      refine (ih _ _ (maxOf_add h r0 x0)).congr (fun r x => ?_)
      constructor
      · rintro ((h | ⟨rfl, rfl⟩) | ⟨b, l, a, e, hb, hs⟩)
        · exact Or.inl h
        · exact Or.inr ⟨[], line, lines, rfl, by simp, hs0⟩
        · refine Or.inr ⟨line :: b, l, a, by rw [e]; rfl, ?_, hs⟩
          intro l' hl'
          rcases List.mem_cons.1 hl' with rfl | hl'
          · exact ⟨r0, x0, hs0⟩
          · exact hb l' hl'
      · rintro (h | ⟨b, l, a, e, hb, hs⟩)
        · exact Or.inl (Or.inl h)
        · cases b with
          | nil =>
            have e1 := List.head_eq_of_cons_eq e
            subst e1
            exact Or.inl (Or.inr (says_unique hs hs0))
          | cons b0 b =>
            have e1 := List.tail_eq_of_cons_eq e
            exact Or.inr ⟨b, l, a, e1, fun l' hl' => hb l' (by simp [hl']), hs⟩

/-- C55 (v1): after loading predictor files, a right part has a coefficient exactly when some readable file gives it a
    score before its first malformed line, and the coefficient is the largest such score, whatever the order of the files.
    Unreadable files and everything from the first malformed line of a file on are silently ignored. -/
theorem C55_v1_load (parseFloat : Str → Option Rat) (files : List (Option (List Str))) (r : Str) (y : Rat) :
    Dict.get? (V1.loadPredictors parseFloat files) r = some y ↔
      Gives parseFloat files r y ∧ ∀ x, Gives parseFloat files r x → x ≤ y := by
  have key : ∀ (fs : List (Option (List Str))) (d : Dict Str Rat) (G : Str → Rat → Prop), MaxOf d G →
      MaxOf (fs.foldl (fun d f => match f with
        | some lines => V1.loadLines parseFloat d lines
        | none => d) d) (fun r x => G r x ∨ Gives parseFloat fs r x) := by
    intro fs
    induction fs with
    | nil =>
      intro d G h
      refine h.congr (fun r x => ⟨Or.inl, ?_⟩)
      rintro (h | ⟨b, l, a, hm, _⟩)
      · exact h
      · simp at hm
    | cons f fs ih =>
      intro d G h
      rw [List.foldl_cons]
      cases f with
      | none =>
        refine (ih _ _ h).congr (fun r x => ?_)
        constructor
        · rintro (h | ⟨b, l, a, hm, q⟩)
          · exact Or.inl h
          · exact Or.inr ⟨b, l, a, List.mem_cons_of_mem _ hm, q⟩
        · rintro (h | ⟨b, l, a, hm, q⟩)
          · exact Or.inl h
          · exact Or.inr ⟨b, l, a, by simpa using hm, q⟩
      | some lines =>
        refine (ih _ _ (maxOf_lines parseFloat lines d G h)).congr (fun r x => ?_)
        constructor
        · rintro ((h | ⟨b, l, a, e, q⟩) | ⟨b, l, a, hm, q⟩)
          · exact Or.inl h
          · exact Or.inr ⟨b, l, a, by rw [e]; simp, q⟩
          · exact Or.inr ⟨b, l, a, List.mem_cons_of_mem _ hm, q⟩
        · rintro (h | ⟨b, l, a, hm, q⟩)
          · exact Or.inl (Or.inl h)
          · rcases List.mem_cons.1 hm with e | hm
            · exact Or.inl (Or.inr ⟨b, l, a, (Option.some.inj e).symm, q⟩)
            · exact Or.inr ⟨b, l, a, hm, q⟩
  have h0 : MaxOf ([] : Dict Str Rat) (fun _ _ => False) := ⟨Dict.wf_nil, by simp, by simp⟩
  have h := (key files [] _ h0).congr (H := Gives parseFloat files) (fun r x => by simp)
  change MaxOf (V1.loadPredictors parseFloat files) _ at h
  constructor
  · intro hy
    refine ⟨h.attained r y hy, fun x hx => ?_⟩
    obtain ⟨z, hz, hle⟩ := h.upper r x hx
    rw [hy] at hz
    rw [Option.some.inj hz]; exact hle
  · rintro ⟨h1, h2⟩
    obtain ⟨z, hz, hle⟩ := h.upper r y h1
    have := h2 z (h.attained r z hz)
    rw [hz, le_antisymm hle this]

/-! ### concrete cases -/

example : V2.loadPredictor [(some ["은".toList, "는 ".toList], some ["은".toList, "다".toList]), (some ["이".toList], some ["는".toList])] =
    .ok ⟨["이".toList], ["다".toList], ["은".toList, "는".toList]⟩ := by decide +kernel
example : V2.loadPredictor [(some ["은".toList], none)] = .error .osError := by decide +kernel
/-- 다 is negative and common afterwards -/
example : V2.appendFeatures ⟨["이".toList], ["다".toList], ["은".toList]⟩ "pos".toList ["다".toList, "에".toList] =
    .ok ⟨["이".toList, "에".toList], ["다".toList], ["은".toList, "다".toList]⟩ := by decide +kernel

private def pf : Str → Option Rat := fun s => if s = "0.5".toList then some (1/2) else if s = "1".toList then some 1 else none
/-- the larger score is kept; what follows the malformed line is ignored -/
example : V1.loadPredictors pf [some ["은\t0.5\n".toList, "는\t1\n".toList, "다\n".toList, "이\t1".toList], none, some ["은\t1".toList, "는\t0.5".toList]] =
    ([("은".toList, 1), ("는".toList, 1)] : List (Str × Rat)) := by decide +kernel

end Props
