import Verif.Proofs.Stem
import Verif.Props.C59
import Verif.Props.C48
/-! C60: `StemExtractor` judges every unknown left part before a known ending surface on all its right parts, and reads the accepted ones as
    stems with endings that are *not* known. -/
set_option linter.unusedSimpArgs false
set_option linter.unusedVariables false
namespace Props
open Py Nested Lemma

/-! ### specification -/

/-- the eojeol `w` is in the graph: it is counted and has an admissible split -/
def InGraph (lMax rMax : Int) (c : Dict Str Int) (w : Str) : Prop := ∃ l r n, l ++ r = w ∧ EomiSplit lMax rMax c l r n

/-- `l` and `r` are the two pieces of an eojeol that is a form of a known stem and a known ending; `l` is as long as the stem -/
def FormPieces (lMax rMax : Int) (c : Dict Str Int) (stems eomis : List Str) (l r : Str) : Prop :=
  r ≠ [] ∧ InGraph lMax rMax c (l ++ r) ∧ ∃ stem ∈ stems, ∃ eomi ∈ eomis, l.length = stem.length ∧ ∃ forms, conjugate stem eomi = .ok forms ∧ l ++ r ∈ forms

def KnownL (lMax rMax : Int) (c : Dict Str Int) (stems eomis : List Str) (l : Str) : Prop := ∃ r, FormPieces lMax rMax c stems eomis l r
def KnownR (lMax rMax : Int) (c : Dict Str Int) (stems eomis : List Str) (r : Str) : Prop := ∃ l, FormPieces lMax rMax c stems eomis l r

/-- the endings that are particles too -/
def alsoJosa (r : Str) : Prop := r ∈ ["거나".toList, "게".toList, "게는".toList, "게도".toList, "고".toList, "고도".toList, "고만".toList, "는".toList,
  "다".toList, "다가".toList, "서는".toList, "아".toList, "은".toList]

/-- `r` is itself a stem surface with an ending surface -/
def IsPredicate (L R : Str → Prop) (r : Str) : Prop := ∃ a b, a ≠ [] ∧ b ≠ [] ∧ r = a ++ b ∧ L a ∧ R b
/-- an ending surface begins inside `l` -/
def LongerEnding (R : Str → Prop) (l r : Str) : Prop := ∃ a b, b ≠ [] ∧ l = a ++ b ∧ R (b ++ r)

def ForStem (R : Str → Prop) (r : Str) : Prop := ¬ alsoJosa r ∧ R r
def AgainstStem (L R : Str → Prop) (l r : Str) : Prop := ¬ alsoJosa r ∧ ¬ R r ∧ (r = [] ∨ IsPredicate L R r ∨ LongerEnding R l r)
def NeitherStem (L R : Str → Prop) (l r : Str) : Prop := ¬ alsoJosa r ∧ ¬ R r ∧ ¬ (r = [] ∨ IsPredicate L R r ∨ LongerEnding R l r)
/-- the right parts whose spread is measured -/
def ClearFor (L R : Str → Prop) (l r : Str) : Prop := ForStem R r ∧ ¬ IsPredicate L R r ∧ ¬ LongerEnding R l r

/-- the right parts of `l` with their counts -/
def RowOf (lMax rMax : Int) (c : Dict Str Int) (l : Str) (row : List (Str × Int)) : Prop := row.Nodup ∧ ∀ r n, (r, n) ∈ row ↔ EomiSplit lMax rMax c l r n

/-- `k` different letters begin the right parts -/
def FirstLetters (row : List (Str × Int)) (k : Nat) : Prop := ∃ chars : List Char, chars.Nodup ∧ (∀ ch, ch ∈ chars ↔ ∃ r n, (ch :: r, n) ∈ row) ∧ chars.length = k

open Classical in
/-- too few first letters, or too little spread -/
def Narrow (L R : Str → Prop) (minUnique : Int) (minEntropy : Rat) (l : Str) (row : List (Str × Int)) : Prop :=
  (∃ k : Nat, FirstLetters row k ∧ (k : Int) < minUnique) ∨ countEntropy ((row.filter (fun rc => decide (ClearFor L R l rc.1))).map (·.2)) < (minEntropy : ℝ)

/-- the score: counts for against counts against -/
noncomputable def stemScore (L R : Str → Prop) (l : Str) (row : List (Str × Int)) : Rat :=
  if LR.wsum row (ForStem R) + LR.wsum row (AgainstStem L R l) = 0 then 0
  else ((LR.wsum row (ForStem R) - LR.wsum row (AgainstStem L R l) : Int) : Rat) / ((LR.wsum row (ForStem R) + LR.wsum row (AgainstStem L R l) : Int) : Rat)

/-- the support: the counts of the side the score is on -/
noncomputable def stemSupport (L R : Str → Prop) (m : Rat) (l : Str) (row : List (Str × Int)) : Int :=
  if m ≤ stemScore L R l row then LR.wsum row (ForStem R) else LR.wsum row (AgainstStem L R l) + LR.wsum row (NeitherStem L R l)

/-- the prediction for `l` -/
def StemPrediction (L R : Str → Prop) (minUnique : Int) (minEntropy : Rat) (m : Rat) (f : Int) (l : Str) (row : List (Str × Int)) (x : Rat × Int) : Prop :=
  (Narrow L R minUnique minEntropy l row → x = (0, 0)) ∧
  (¬ Narrow L R minUnique minEntropy l row → x.2 = stemSupport L R m l row ∧
    (stemSupport L R m l row < f → x.1 = 0) ∧ (f ≤ stemSupport L R m l row → x.1 = stemScore L R l row))

/-- `l` is unknown, is not to be ignored, and is seen at least `f` times before known ending surfaces -/
def StemCandidate (lMax rMax : Int) (c : Dict Str Int) (L R : Str → Prop) (ignore : List Str) (f : Int) (l : Str) : Prop :=
  ¬ L l ∧ l ∉ ignore ∧ ∃ K : List (Str × Int), K.Nodup ∧ (∀ r n, (r, n) ∈ K ↔ R r ∧ EomiSplit lMax rMax c l r n) ∧ K ≠ [] ∧ f ≤ (K.map (·.2)).sum

/-- `l` passes: a candidate of two or more letters, no ending surface, not ending in 다, with a wide row, a score of at least `m` and a support of at least `f` -/
def StemAccepted (lMax rMax : Int) (c : Dict Str Int) (L R : Str → Prop) (minUnique : Int) (minEntropy : Rat) (ignore : List Str) (m : Rat) (f : Int)
    (l : Str) (x : Rat × Int) : Prop :=
  StemCandidate lMax rMax c L R ignore f l ∧ ¬ R l ∧ l.length ≠ 1 ∧ ¬ (['다'] <:+ l) ∧ ∃ row, RowOf lMax rMax c l row ∧ ¬ Narrow L R minUnique minEntropy l row ∧
    x = (stemScore L R l row, LR.wsum row (ForStem R)) ∧ m ≤ x.1 ∧ f ≤ x.2

/-- `l` passes, whatever the threshold: a candidate of two or more letters, no ending surface, not ending in 다, whose *prediction* `x` reaches both
    thresholds (for a positive threshold this is `StemAccepted`) -/
def StemPasses (lMax rMax : Int) (c : Dict Str Int) (L R : Str → Prop) (minUnique : Int) (minEntropy : Rat) (ignore : List Str) (m : Rat) (f : Int)
    (l : Str) (x : Rat × Int) : Prop :=
  StemCandidate lMax rMax c L R ignore f l ∧ ¬ R l ∧ l.length ≠ 1 ∧ ¬ (['다'] <:+ l) ∧ ∃ row, RowOf lMax rMax c l row ∧
    StemPrediction L R minUnique minEntropy m f l row x ∧ m ≤ x.1 ∧ f ≤ x.2

/-- `l` is removed again: it begins with a known or accepted surface followed by an ending surface, or with an accepted surface of two letters or more -/
def StemRemoved (L R Ext : Str → Prop) (l : Str) : Prop :=
  (∃ a b d, l = a ++ b ++ d ∧ a ≠ [] ∧ b ≠ [] ∧ (L a ∨ Ext a) ∧ R b) ∨ (∃ a b, l = a ++ b ∧ 2 ≤ a.length ∧ b ≠ [] ∧ Ext a)

/-- the eojeol `l ++ r` of the accepted surface `l`, with score `s` and support `f`, is read as the stem `y` with the ending `eomi`, which is not a known one -/
def StemReading (lMax rMax : Int) (c : Dict Str Int) (eomis : List Str) (surf : Dict Str (Rat × Int)) (y l r eomi : Str) (s : Rat) (f : Int) : Prop :=
  Dict.get? surf l = some (s, f) ∧ (∃ n, EomiSplit lMax rMax c l r n) ∧ eomi ∉ eomis ∧ ∃ cs, lemmaCandidate l r = .ok cs ∧ (y, eomi) ∈ cs

/-- the two numbers reported for a stem: the sum of the *scores* over its readings, and the mean of the supports weighted by the scores -/
def StemEntry (lMax rMax : Int) (c : Dict Str Int) (eomis : List Str) (surf : Dict Str (Rat × Int)) (y : Str) (x : Rat × Rat) : Prop :=
  ∃ K : List ((Str × Str × Str) × Rat × Int), K.Nodup ∧ (∀ l r eomi s f, ((l, r, eomi), s, f) ∈ K ↔ StemReading lMax rMax c eomis surf y l r eomi s f) ∧
    K ≠ [] ∧ x.1 = (K.map (fun k => k.2.1)).sum ∧ x.2 * x.1 = (K.map (fun k => (k.2.2 : Rat) * k.2.1)).sum

/-! ### proofs -/

private theorem edge_iff {lMax rMax : Int} {c : Dict Str Int} (hw : c.WF) {g : LR.State} (hg : g.lr = LR.lrOfCounter lMax rMax c)
    (l r : Str) (n : Int) : get2 g.lr l r = some n ↔ EomiSplit lMax rMax c l r n := by
  rw [hg, LR.get2_lrOfCounter _ _ hw]
  unfold EomiSplit
  constructor
  · rintro ⟨⟨a, b, c⟩, d⟩; exact ⟨a, b, c, d⟩
  · rintro ⟨a, b, c, d⟩; exact ⟨⟨a, b, c⟩, d⟩

private theorem counter_ne_zero {lMax rMax : Int} {c : Dict Str Int} (hw : c.WF) (hp : ∀ kv ∈ c, 0 < kv.2) (w : Str) :
    Dict.getD (LR.counterOf (LR.lrOfCounter lMax rMax c)) w 0 ≠ 0 ↔ InGraph lMax rMax c w := by
  have w2 := LR.wf2_lrOfCounter lMax rMax c
  have hfl := wf_flat w2.outer w2.inner
  have hmem : ∀ l r v, ((l, r), v) ∈ flat (LR.lrOfCounter lMax rMax c) ↔ EomiSplit lMax rMax c l r v := by
    intro l r v
    rw [Dict.mem_iff_get? hfl, get?_flat w2.outer, LR.get2_lrOfCounter lMax rMax hw]
    unfold EomiSplit
    constructor
    · rintro ⟨⟨a, b, c⟩, d⟩; exact ⟨a, b, c, d⟩
    · rintro ⟨a, b, c, d⟩; exact ⟨⟨a, b, c⟩, d⟩
  show (Dict.get? (LR.counterOf (LR.lrOfCounter lMax rMax c)) w).getD 0 ≠ 0 ↔ _
  rw [LR.counterOf_eq, LR.get?_foldl_set _ (fun k => (Dict.get? c k).getD 0)]
  · split
    · rename_i hx
      obtain ⟨x, hx, e⟩ := hx
      obtain ⟨⟨⟨l, r⟩, v⟩, hm, rfl⟩ := List.mem_map.1 hx
      dsimp only at e; subst e
      have hs := (hmem l r v).1 hm
      constructor
      · intro _; exact ⟨l, r, v, rfl, hs⟩
      · intro _
        rw [Option.getD_some, hs.2.2.2, Option.getD_some]
        have := hp _ (Dict.mem_of_get? hs.2.2.2)
        dsimp only at this; omega
    · rename_i hx
      constructor
      · intro h; exact absurd rfl h
      · rintro ⟨l, r, n, e, hs⟩
        exact absurd ⟨(l ++ r, n), List.mem_map.2 ⟨((l, r), n), (hmem l r n).2 hs, rfl⟩, e⟩ hx
  · intro x hx
    obtain ⟨⟨⟨l, r⟩, v⟩, hm, rfl⟩ := List.mem_map.1 hx
    dsimp only
    rw [((hmem l r v).1 hm).2.2.2]; rfl

private theorem mem_conjugateAll {lMax rMax : Int} {c : Dict Str Int} (hw : c.WF) (hp : ∀ kv ∈ c, 0 < kv.2) (stems eomis : List Str) (l r : Str) :
    (l, r) ∈ Stem.conjugateAll (LR.counterOf (LR.lrOfCounter lMax rMax c)) stems eomis ↔ FormPieces lMax rMax c stems eomis l r := by
  unfold Stem.conjugateAll FormPieces
  rw [List.mem_flatMap]
  have one : ∀ stem eomi, (l, r) ∈ Stem.pairsOf (LR.counterOf (LR.lrOfCounter lMax rMax c)) stem eomi ↔
      r ≠ [] ∧ InGraph lMax rMax c (l ++ r) ∧ l.length = stem.length ∧ ∃ forms, conjugate stem eomi = .ok forms ∧ l ++ r ∈ forms := by
    intro stem eomi
    unfold Stem.pairsOf
    cases hc : conjugate stem eomi with
    | error e =>
      constructor
      · intro h; cases h
      · rintro ⟨_, _, _, _, h, _⟩; cases h
    | ok words =>
      dsimp only
      rw [List.mem_map]
      constructor
      · rintro ⟨w, hw1, e⟩
        obtain ⟨h1, h2⟩ := List.mem_filter.1 hw1
        rw [Bool.not_eq_true', Bool.or_eq_false_iff, decide_eq_false_iff_not, decide_eq_false_iff_not] at h2
        have e1 : w.take stem.length = l := congrArg Prod.fst e
        have e2 : w.drop stem.length = r := congrArg Prod.snd e
        have e3 : l ++ r = w := by rw [← e1, ← e2, List.take_append_drop]
        refine ⟨?_, ?_, ?_, words, rfl, by rw [e3]; exact h1⟩
        · intro h0
          have := congrArg List.length e2
          rw [List.length_drop, h0, List.length_nil] at this
          omega
        · rw [e3]; exact (counter_ne_zero hw hp w).1 h2.1
        · rw [← e1, List.length_take]; omega
      · rintro ⟨h1, h2, h3, forms, h4, h5⟩
        cases h4
        refine ⟨l ++ r, List.mem_filter.2 ⟨h5, ?_⟩, ?_⟩
        · rw [Bool.not_eq_true', Bool.or_eq_false_iff, decide_eq_false_iff_not, decide_eq_false_iff_not]
          refine ⟨(counter_ne_zero hw hp _).2 h2, ?_⟩
          have := List.length_pos_iff.2 h1
          rw [List.length_append]; omega
        · rw [← h3, List.take_left, List.drop_left]
  constructor
  · rintro ⟨stem, hs, h⟩
    obtain ⟨eomi, he, h⟩ := List.mem_flatMap.1 h
    obtain ⟨h1, h2, h3, h4⟩ := (one stem eomi).1 h
    exact ⟨h1, h2, stem, hs, eomi, he, h3, h4⟩
  · rintro ⟨h1, h2, stem, hs, eomi, he, h3, h4⟩
    exact ⟨stem, hs, List.mem_flatMap.2 ⟨eomi, he, (one stem eomi).2 ⟨h1, h2, h3, h4⟩⟩⟩

private theorem contains_iff {l : Str} {S : List Str} : S.contains l = true ↔ l ∈ S := by simp

private theorem josa_iff (r : Str) : Stem.josa.contains r = true ↔ alsoJosa r := by
  rw [contains_iff]; exact Iff.rfl

private theorem isPredicate_iff (s : Stem.State) (r : Str) : Stem.rIsPredicator s r = true ↔ IsPredicate (· ∈ s.L) (· ∈ s.R) r := by
  unfold Stem.rIsPredicator IsPredicate
  rw [List.any_eq_true]
  constructor
  · rintro ⟨i, hi, h⟩
    rw [List.mem_range'_1] at hi
    rw [Bool.and_eq_true, contains_iff, contains_iff] at h
    refine ⟨r.take i, r.drop i, ?_, ?_, (List.take_append_drop i r).symm, h.1, h.2⟩
    · intro e
      have := congrArg List.length e
      rw [List.length_take, List.length_nil] at this
      omega
    · intro e
      have := congrArg List.length e
      rw [List.length_drop, List.length_nil] at this
      omega
  · rintro ⟨a, b, ha, hb, rfl, h1, h2⟩
    have p1 := List.length_pos_iff.2 ha
    have p2 := List.length_pos_iff.2 hb
    refine ⟨a.length, ?_, ?_⟩
    · rw [List.mem_range'_1, List.length_append]; omega
    · rw [List.take_left, List.drop_left, Bool.and_eq_true, contains_iff, contains_iff]; exact ⟨h1, h2⟩

private theorem longerEnding_iff (s : Stem.State) (l r : Str) : Stem.existLongerEomi s l r = true ↔ LongerEnding (· ∈ s.R) l r := by
  unfold Stem.existLongerEomi LongerEnding
  rw [List.any_eq_true]
  constructor
  · rintro ⟨i, hi, h⟩
    rw [List.mem_range'_1] at hi
    refine ⟨l.take (l.length - i), l.drop (l.length - i), ?_, (List.take_append_drop _ l).symm, contains_iff.1 h⟩
    intro e
    have := congrArg List.length e
    rw [List.length_drop, List.length_nil] at this
    omega
  · rintro ⟨a, b, hb, rfl, h⟩
    have p2 := List.length_pos_iff.2 hb
    refine ⟨b.length, ?_, ?_⟩
    · rw [List.mem_range'_1, List.length_append]; omega
    · rw [show (a ++ b).length - b.length = a.length by rw [List.length_append]; omega, List.drop_left]; exact contains_iff.2 h

section
variable (s : Stem.State) (l : Str) (hR : [] ∉ s.R)

include hR in
private theorem tally_eq (row : List (Str × Int)) (t : Stem.Tally) :
    row.foldl (Stem.tallyStep s l) t = ⟨t.pos + LR.wsum row (ForStem (· ∈ s.R)), t.neg + LR.wsum row (AgainstStem (· ∈ s.L) (· ∈ s.R) l),
      t.unk + LR.wsum row (NeitherStem (· ∈ s.L) (· ∈ s.R) l)⟩ := by
  classical
  induction row generalizing t with
  | nil => obtain ⟨a, b, c⟩ := t; simp [LR.wsum]
  | cons f row ih =>
    rw [List.foldl_cons, ih, LR.wsum_cons, LR.wsum_cons, LR.wsum_cons]
    unfold Stem.tallyStep
    by_cases h1 : alsoJosa f.1
    · rw [if_pos ((josa_iff f.1).2 h1), if_neg (show ¬ ForStem _ _ from fun h => h.1 h1), if_neg (show ¬ AgainstStem _ _ _ _ from fun h => h.1 h1),
        if_neg (show ¬ NeitherStem _ _ _ _ from fun h => h.1 h1)]
      simp
    · rw [if_neg (fun h => h1 ((josa_iff f.1).1 h))]
      by_cases h2 : f.1 ∈ s.R
      · have h0 : f.1 ≠ [] := by intro e; rw [e] at h2; exact hR h2
        rw [if_neg h0, if_pos (contains_iff.2 h2), if_pos (show ForStem _ _ from ⟨h1, h2⟩), if_neg (show ¬ AgainstStem _ _ _ _ from fun h => h.2.1 h2),
          if_neg (show ¬ NeitherStem _ _ _ _ from fun h => h.2.1 h2)]
        simp [Int.add_assoc]
      · rw [if_neg (show ¬ ForStem _ _ from fun h => h2 h.2)]
        by_cases h3 : f.1 = [] ∨ IsPredicate (· ∈ s.L) (· ∈ s.R) f.1 ∨ LongerEnding (· ∈ s.R) l f.1
        · rw [if_pos (show AgainstStem _ _ _ _ from ⟨h1, h2, h3⟩), if_neg (show ¬ NeitherStem _ _ _ _ from fun h => h.2.2 h3)]
          by_cases h4 : f.1 = []
          · rw [if_pos h4]; simp [Int.add_assoc]
          · rw [if_neg h4, if_neg (fun h => h2 (contains_iff.1 h))]
            by_cases h5 : IsPredicate (· ∈ s.L) (· ∈ s.R) f.1
            · rw [if_pos ((isPredicate_iff s f.1).2 h5)]; simp [Int.add_assoc]
            · have h6 : LongerEnding (· ∈ s.R) l f.1 := by
                rcases h3 with h | h | h
                · exact absurd h h4
                · exact absurd h h5
                · exact h
              rw [if_neg (fun h => h5 ((isPredicate_iff s f.1).1 h)), if_pos ((longerEnding_iff s l f.1).2 h6)]; simp [Int.add_assoc]
        · rw [if_neg (show ¬ AgainstStem _ _ _ _ from fun h => h3 h.2.2), if_pos (show NeitherStem _ _ _ _ from ⟨h1, h2, h3⟩), if_neg (fun h => h3 (.inl h)),
            if_neg (fun h => h2 (contains_iff.1 h)), if_neg (fun h => h3 (.inr (.inl ((isPredicate_iff s f.1).1 h)))),
            if_neg (fun h => h3 (.inr (.inr ((longerEnding_iff s l f.1).1 h))))]
          simp [Int.add_assoc]

private theorem selectPos_eq (row : List (Str × Int)) (p : Str × Int → Bool) (hp : ∀ rc, p rc = true ↔ ClearFor (· ∈ s.L) (· ∈ s.R) l rc.1) :
    Stem.selectPos s l row = row.filter p := by
  unfold Stem.selectPos
  apply List.filter_congr
  intro rc _
  rw [Bool.eq_iff_iff, hp]
  unfold ClearFor ForStem
  rw [← josa_iff, ← isPredicate_iff, ← longerEnding_iff]
  dsimp only
  rw [← contains_iff]
  cases Stem.josa.contains rc.1 <;> cases Stem.rIsPredicator s rc.1 <;> cases Stem.existLongerEomi s l rc.1 <;> cases s.R.contains rc.1 <;> decide

private theorem firstLetters (row : List (Str × Int)) : FirstLetters row (Stem.firstChars row).length := by
  refine ⟨Stem.firstChars row, List.nodup_dedup _, ?_, rfl⟩
  intro ch
  unfold Stem.firstChars
  rw [List.mem_dedup, List.mem_filterMap]
  constructor
  · rintro ⟨⟨r, n⟩, hm, h⟩
    cases r with
    | nil => cases h
    | cons a r =>
      have : a = ch := Option.some.inj h
      subst this
      exact ⟨r, n, hm⟩
  · rintro ⟨r, n, h⟩
    exact ⟨(ch :: r, n), h, rfl⟩

private theorem firstLetters_unique {row : List (Str × Int)} {k k' : Nat} (h : FirstLetters row k) (h' : FirstLetters row k') : k = k' := by
  obtain ⟨a, a1, a2, rfl⟩ := h
  obtain ⟨b, b1, b2, rfl⟩ := h'
  exact ((List.perm_ext_iff_of_nodup a1 b1).2 (fun ch => by rw [a2, b2])).length_eq

private theorem entropyLt_iff {entLt : List Int → Rat → Bool} (hent : ∀ cs x, entLt cs x = true ↔ countEntropy cs < (x : ℝ)) (cs : List Int) (x : Rat) :
    Stem.entropyLt entLt cs x = true ↔ countEntropy cs < (x : ℝ) := by
  unfold Stem.entropyLt
  by_cases h : cs.length ≤ 1
  · rw [if_pos h, decide_eq_true_iff]
    have : countEntropy cs = 0 := by
      unfold countEntropy
      match cs, h with
      | [], _ => simp
      | [c], _ =>
        by_cases hc : (c : ℝ) = 0
        · simp [hc]
        · simp [div_self hc]
    rw [this]
    exact_mod_cast Iff.rfl
  · rw [if_neg h, hent]

include hR in
private theorem predictRow_spec {entLt : List Int → Rat → Bool} (hent : ∀ cs x, entLt cs x = true ↔ countEntropy cs < (x : ℝ)) (row : List (Str × Int))
    (hpos : ∀ rc ∈ row, 0 < rc.2) (m : Rat) (f : Int) :
    StemPrediction (· ∈ s.L) (· ∈ s.R) s.minUnique s.minEntropy m f l row (Stem.predictRow entLt s l row m f) := by
  classical
  have ht : Stem.tally s l row = ⟨LR.wsum row (ForStem (· ∈ s.R)), LR.wsum row (AgainstStem (· ∈ s.L) (· ∈ s.R) l), LR.wsum row (NeitherStem (· ∈ s.L) (· ∈ s.R) l)⟩ := by
    unfold Stem.tally; rw [tally_eq s l hR]; simp
  have hnn : ∀ P : Str → Prop, 0 ≤ LR.wsum row P := by
    intro P
    unfold LR.wsum
    apply List.sum_nonneg
    intro x hx
    obtain ⟨e, he, rfl⟩ := List.mem_map.1 hx
    exact Int.le_of_lt (hpos e (List.mem_filter.1 he).1)
  have hs : Stem.score (Stem.tally s l row) = stemScore (· ∈ s.L) (· ∈ s.R) l row := by
    rw [ht]
    unfold Stem.score stemScore
    dsimp only
    have h1 := hnn (ForStem (· ∈ s.R))
    have h2 := hnn (AgainstStem (· ∈ s.L) (· ∈ s.R) l)
    by_cases h : LR.wsum row (ForStem (· ∈ s.R)) + LR.wsum row (AgainstStem (· ∈ s.L) (· ∈ s.R) l) = 0
    · rw [if_pos h, if_neg (by omega)]
    · rw [if_neg h, if_pos (by omega)]
  have hsup : (if Stem.score (Stem.tally s l row) ≥ m then (Stem.tally s l row).pos else (Stem.tally s l row).neg + (Stem.tally s l row).unk) =
      stemSupport (· ∈ s.L) (· ∈ s.R) m l row := by
    rw [hs, ht]
    unfold stemSupport
    rfl
  have hnar : (decide (((Stem.firstChars row).length : Int) < s.minUnique) || Stem.entropyLt entLt ((Stem.selectPos s l row).map (·.2)) s.minEntropy) = true ↔
      Narrow (· ∈ s.L) (· ∈ s.R) s.minUnique s.minEntropy l row := by
    unfold Narrow
    rw [Bool.or_eq_true, decide_eq_true_iff, entropyLt_iff hent, selectPos_eq s l row _ (fun rc => @decide_eq_true_iff _ (Classical.propDecidable _))]
    constructor
    · rintro (h | h)
      · exact .inl ⟨_, firstLetters row, h⟩
      · exact .inr h
    · rintro (⟨k, h1, h2⟩ | h)
      · rw [firstLetters_unique h1 (firstLetters row)] at h2
        exact .inl h2
      · exact .inr h
  unfold Stem.predictRow StemPrediction
  dsimp only
  rw [hsup, hs]
  constructor
  · intro h; rw [if_pos (hnar.2 h)]
  · intro h
    rw [if_neg (fun h' => h (hnar.1 h'))]
    by_cases hf : stemSupport (· ∈ s.L) (· ∈ s.R) m l row < f
    · rw [if_pos hf]
      exact ⟨rfl, fun _ => rfl, fun h => by omega⟩
    · rw [if_neg hf]
      exact ⟨rfl, fun h => absurd h hf, fun _ => rfl⟩
end

private theorem rowOf_perm {lMax rMax : Int} {c : Dict Str Int} {l : Str} {a b : List (Str × Int)} (ha : RowOf lMax rMax c l a) (hb : RowOf lMax rMax c l b) : a.Perm b :=
  (List.perm_ext_iff_of_nodup ha.1 hb.1).2 (fun u => by obtain ⟨r, n⟩ := u; rw [ha.2, hb.2])

private theorem wsum_perm {a b : List (Str × Int)} (h : a.Perm b) (P : Str → Prop) : LR.wsum a P = LR.wsum b P := by
  unfold LR.wsum
  exact ((h.filter _).map _).sum_eq

private theorem stemScore_perm {a b : List (Str × Int)} (h : a.Perm b) (L R : Str → Prop) (l : Str) : stemScore L R l a = stemScore L R l b := by
  unfold stemScore; rw [wsum_perm h, wsum_perm h]

private theorem stemSupport_perm {a b : List (Str × Int)} (h : a.Perm b) (L R : Str → Prop) (m : Rat) (l : Str) : stemSupport L R m l a = stemSupport L R m l b := by
  unfold stemSupport; rw [wsum_perm h, wsum_perm h, wsum_perm h, stemScore_perm h]

private theorem narrow_perm {a b : List (Str × Int)} (h : a.Perm b) (L R : Str → Prop) (k : Int) (e : Rat) (l : Str) : Narrow L R k e l a ↔ Narrow L R k e l b := by
  unfold Narrow FirstLetters
  have : countEntropy ((a.filter (fun rc => @decide (ClearFor L R l rc.1) (Classical.propDecidable _))).map (·.2)) =
      countEntropy ((b.filter (fun rc => @decide (ClearFor L R l rc.1) (Classical.propDecidable _))).map (·.2)) := by
    have hp := (h.filter (fun rc => @decide (ClearFor L R l rc.1) (Classical.propDecidable _))).map (·.2)
    unfold countEntropy
    rw [hp.sum_eq, (hp.map _).sum_eq]
  rw [this]
  simp only [h.mem_iff]

private theorem prediction_perm {a b : List (Str × Int)} (h : a.Perm b) (L R : Str → Prop) (k : Int) (e : Rat) (m : Rat) (f : Int) (l : Str) (x : Rat × Int) :
    StemPrediction L R k e m f l a x → StemPrediction L R k e m f l b x := by
  unfold StemPrediction
  rw [narrow_perm h, stemSupport_perm h, stemScore_perm h]
  exact id

private theorem getR_row {lMax rMax : Int} {c : Dict Str Int} (hw : c.WF) {g : LR.State} (hi : LR.Inv g) (hg : g.lr = LR.lrOfCounter lMax rMax c) (l : Str) :
    RowOf lMax rMax c l (LR.getR g l (-1)) :=
  ⟨List.Nodup.of_map _ (LR.getR_all_nodup hi l), fun r n => by rw [LR.mem_getR_all hi, edge_iff hw hg]⟩

/-- C60: what the extractor knows: the pieces of all forms of the stems and endings that are in the graph. -/
theorem C60_known (lMax rMax : Int) (c : Dict Str Int) (hw : c.WF) (hp : ∀ kv ∈ c, 0 < kv.2) (g : LR.State) (hg : g.lr = LR.lrOfCounter lMax rMax c)
    (stems eomis : List Str) (k : Int) (e : Rat) :
    (∀ l, l ∈ (Stem.construct g stems eomis k e).L ↔ KnownL lMax rMax c stems eomis l) ∧
    (∀ r, r ∈ (Stem.construct g stems eomis k e).R ↔ KnownR lMax rMax c stems eomis r) := by
  unfold Stem.construct KnownL KnownR
  dsimp only
  rw [hg]
  constructor
  · intro l
    rw [List.mem_map]
    constructor
    · rintro ⟨⟨l', r⟩, h, rfl⟩; exact ⟨r, (mem_conjugateAll hw hp _ _ _ _).1 h⟩
    · rintro ⟨r, h⟩; exact ⟨(l, r), (mem_conjugateAll hw hp _ _ _ _).2 h, rfl⟩
  · intro r
    rw [List.mem_map]
    constructor
    · rintro ⟨⟨l, r'⟩, h, rfl⟩; exact ⟨l, (mem_conjugateAll hw hp _ _ _ _).1 h⟩
    · rintro ⟨l, h⟩; exact ⟨(l, r), (mem_conjugateAll hw hp _ _ _ _).2 h, rfl⟩

section
variable (lMax rMax : Int) (c : Dict Str Int) (hw : c.WF) (hp : ∀ kv ∈ c, 0 < kv.2) (g : LR.State) (hi : LR.Inv g) (hg : g.lr = LR.lrOfCounter lMax rMax c)
  (stems eomis : List Str) (k : Int) (e : Rat) (entLt : List Int → Rat → Bool) (hent : ∀ cs x, entLt cs x = true ↔ countEntropy cs < (x : ℝ))

include hw hp hi hg hent

/-- C60: the prediction for any left part. -/
theorem C60_predict (l : Str) (m : Rat) (f : Int) (row : List (Str × Int)) (hrow : RowOf lMax rMax c l row) :
    StemPrediction (KnownL lMax rMax c stems eomis) (KnownR lMax rMax c stems eomis) k e m f l row (Stem.predict entLt (Stem.construct g stems eomis k e) l m f) := by
  obtain ⟨h1, h2⟩ := C60_known lMax rMax c hw hp g hg stems eomis k e
  have e1 : KnownL lMax rMax c stems eomis = (· ∈ (Stem.construct g stems eomis k e).L) := funext (fun l => propext (h1 l).symm)
  have e2 : KnownR lMax rMax c stems eomis = (· ∈ (Stem.construct g stems eomis k e).R) := funext (fun l => propext (h2 l).symm)
  have hR : [] ∉ (Stem.construct g stems eomis k e).R := by rw [h2]; rintro ⟨_, h, _⟩; exact h rfl
  rw [e1, e2]
  have hr := getR_row hw hi hg l
  apply prediction_perm (rowOf_perm hr hrow)
  refine predictRow_spec (Stem.construct g stems eomis k e) l hR hent (LR.getR g l (-1)) ?_ m f
  rintro ⟨r, n⟩ hm
  exact hp (l ++ r, n) (Dict.mem_of_get? ((hr.2 r n).1 hm).2.2.2)

omit hent in
private theorem cands_spec (enumR : List Str → List Str) (hE : ∀ l, (enumR l).Perm l) (ignore : List Str) (f : Int) (l : Str) :
    l ∈ Dict.keys ((Stem.candidates (Stem.construct g stems eomis k e) ignore (enumR (Stem.construct g stems eomis k e).R.dedup)).filter (fun x => decide (x.2 ≥ f))) ↔
      StemCandidate lMax rMax c (KnownL lMax rMax c stems eomis) (KnownR lMax rMax c stems eomis) ignore f l := by
  obtain ⟨h1, h2⟩ := C60_known lMax rMax c hw hp g hg stems eomis k e
  generalize hs : Stem.construct g stems eomis k e = s at *
  have hsg : s.lrgraph = g := by rw [← hs]; rfl
  rw [Stem.candidates_eq]
  obtain ⟨U, hU⟩ : ∃ U, (Stem.units s.lrgraph (enumR s.R.dedup)).filter (fun u => !(s.L.contains u.2.1 || ignore.contains u.2.1)) = U := ⟨_, rfl⟩
  rw [hU]
  have hUn : U.Nodup := by
    rw [← hU]
    exact (Stem.nodup_units (by rw [hsg]; exact hi) ((hE _).nodup_iff.2 (List.nodup_dedup _))).filter _
  have hUm : ∀ r l n, (r, l, n) ∈ U ↔ (¬ KnownL lMax rMax c stems eomis l ∧ l ∉ ignore) ∧ KnownR lMax rMax c stems eomis r ∧ EomiSplit lMax rMax c l r n := by
    intro r l n
    rw [← hU, List.mem_filter, Stem.mem_units (by rw [hsg]; exact hi), hsg, edge_iff hw hg, (hE _).mem_iff, List.mem_dedup, h2, ← h1]
    rw [Bool.not_eq_true', Bool.or_eq_false_iff, ← Bool.not_eq_true, ← Bool.not_eq_true, contains_iff, contains_iff]
    constructor
    · rintro ⟨⟨a, _, b⟩, d⟩; exact ⟨d, a, b⟩
    · rintro ⟨d, a, b⟩; exact ⟨⟨a, by obtain ⟨_, h, _⟩ := a; exact h, b⟩, d⟩
  obtain ⟨D, hD⟩ : ∃ D, U.foldl (fun d u => Dict.addI d u.2.1 u.2.2) [] = D := ⟨_, rfl⟩
  rw [hD]
  have hDw : D.WF := by rw [← hD]; exact Dict.WF.foldl_addI U (fun u => u.2.1) (fun u => u.2.2) Dict.wf_nil
  have hDk : ∀ l, l ∈ Dict.keys D ↔ ∃ u ∈ U, u.2.1 = l := by
    intro l
    rw [← hD, Dict.mem_keys_foldl_addI U (fun u => u.2.1) (fun u => u.2.2)]
    simp [Dict.keys]
  have hDv : ∀ l, Dict.getD D l 0 = ((U.filter (fun u => decide (u.2.1 = l))).map (fun u => u.2.2)).sum := by
    intro l
    rw [← hD, Dict.getD_foldl_addI U (fun u => u.2.1) (fun u => u.2.2)]
    simp [Dict.getD, Dict.get?]
  unfold StemCandidate
  obtain ⟨K, hK⟩ : ∃ K : List (Str × Int), K = (U.filter (fun u => decide (u.2.1 = l))).map (fun u => (u.1, u.2.2)) := ⟨_, rfl⟩
  have hKn : K.Nodup := by
    rw [hK]
    refine (List.nodup_map_iff_inj_on (hUn.filter _)).2 ?_
    rintro ⟨r, l1, n⟩ hu ⟨r', l2, n'⟩ hu' he
    have c1 := of_decide_eq_true (List.mem_filter.1 hu).2
    have c2 := of_decide_eq_true (List.mem_filter.1 hu').2
    dsimp only at c1 c2 he
    rw [c1, c2, (Prod.mk.inj he).1, (Prod.mk.inj he).2]
  have hKm : ∀ r n, (r, n) ∈ K ↔ (r, l, n) ∈ U := by
    intro r n
    rw [hK, List.mem_map]
    constructor
    · rintro ⟨⟨r', l', n'⟩, hu, he⟩
      obtain ⟨a, b⟩ := List.mem_filter.1 hu
      have c1 := of_decide_eq_true b
      dsimp only at c1 he
      rw [← c1, ← (Prod.mk.inj he).1, ← (Prod.mk.inj he).2]; exact a
    · intro h; exact ⟨(r, l, n), List.mem_filter.2 ⟨h, by simp⟩, rfl⟩
  have hKs : (K.map (·.2)).sum = Dict.getD D l 0 := by rw [hDv, hK, List.map_map]; rfl
  have hmemf : l ∈ Dict.keys (D.filter (fun x => decide (x.2 ≥ f))) ↔ l ∈ Dict.keys D ∧ f ≤ Dict.getD D l 0 := by
    rw [← Dict.isSome_get?_iff, ← Dict.isSome_get?_iff, Option.isSome_iff_exists, Option.isSome_iff_exists]
    constructor
    · rintro ⟨v, hv⟩
      rw [← Dict.mem_iff_get? (hDw.filter _), List.mem_filter, Dict.mem_iff_get? hDw, decide_eq_true_iff] at hv
      refine ⟨⟨v, hv.1⟩, ?_⟩
      show f ≤ (Dict.get? D l).getD 0
      rw [hv.1]; exact hv.2
    · rintro ⟨⟨v, hv⟩, h⟩
      refine ⟨v, ?_⟩
      rw [← Dict.mem_iff_get? (hDw.filter _), List.mem_filter, Dict.mem_iff_get? hDw, decide_eq_true_iff]
      refine ⟨hv, ?_⟩
      have : f ≤ (Dict.get? D l).getD 0 := h
      rw [hv] at this; exact this
  rw [hmemf, ← hKs]
  constructor
  · rintro ⟨h, hf⟩
    obtain ⟨⟨r, l', n⟩, hu, e1⟩ := (hDk l).1 h
    dsimp only at e1
    subst e1
    obtain ⟨⟨a, b⟩, _⟩ := (hUm r l' n).1 hu
    refine ⟨a, b, K, hKn, ?_, ?_, hf⟩
    · intro r n
      rw [hKm, hUm]
      exact ⟨fun h => h.2, fun h => ⟨⟨a, b⟩, h⟩⟩
    · intro h0
      have := (hKm r n).2 hu
      rw [h0] at this; cases this
  · rintro ⟨a, b, K', n', m', ne', f'⟩
    have hper : K'.Perm K := (List.perm_ext_iff_of_nodup n' hKn).2 (fun u => by
      obtain ⟨r, n⟩ := u
      rw [m', hKm, hUm]
      exact ⟨fun h => ⟨⟨a, b⟩, h⟩, fun h => h.2⟩)
    rw [(hper.map _).sum_eq] at f'
    refine ⟨?_, f'⟩
    obtain ⟨⟨r, n⟩, hu⟩ := List.exists_mem_of_ne_nil _ ne'
    exact (hDk l).2 ⟨(r, l, n), (hKm r n).1 (hper.mem_iff.1 hu), rfl⟩


private theorem surfaces_spec (enumR : List Str → List Str) (hE : ∀ l, (enumR l).Perm l) (enumL : List (Str × Str) → List (Str × Str))
    (ignore : List Str) (m : Rat) (f : Int) (s' : Stem.State) (out : Dict Str (Rat × Rat))
    (h : Stem.extract entLt enumR enumL (Stem.construct g stems eomis k e) ignore m f = (s', out)) :
    ∃ ext surf : Dict Str (Rat × Int), ∃ rem, s'.surfaces = some surf ∧ s'.removals = some rem ∧ ext.WF ∧ surf.WF ∧
      (∀ l x, Dict.get? ext l = some x ↔ StemPasses lMax rMax c (KnownL lMax rMax c stems eomis) (KnownR lMax rMax c stems eomis) k e ignore m f l x) ∧
      (∀ l, l ∈ rem ↔ l ∈ Dict.keys ext ∧ StemRemoved (KnownL lMax rMax c stems eomis) (KnownR lMax rMax c stems eomis) (· ∈ Dict.keys ext) l) ∧
      (∀ l x, Dict.get? surf l = some x ↔ Dict.get? ext l = some x ∧ l ∉ rem) ∧
      out = Stem.toStem enumL (Stem.construct g stems eomis k e) surf ∧ s'.stems = Dict.keys out ∧ s'.lrgraph = g ∧ s'.eomis = eomis := by
  obtain ⟨k1, k2⟩ := C60_known lMax rMax c hw hp g hg stems eomis k e
  have hpr := C60_predict lMax rMax c hw hp g hi hg stems eomis k e entLt hent
  have hc := cands_spec lMax rMax c hw hp g hi hg stems eomis k e enumR hE ignore f
  have hsg : (Stem.construct g stems eomis k e).lrgraph = g := rfl
  have hse : (Stem.construct g stems eomis k e).eomis = eomis := rfl
  generalize hs : Stem.construct g stems eomis k e = s at *
  unfold Stem.extract at h
  dsimp only at h
  obtain ⟨C, hC⟩ : ∃ C, (Stem.candidates s ignore (enumR s.R.dedup)).filter (fun x => decide (x.2 ≥ f)) = C := ⟨_, rfl⟩
  have hCw : Dict.WF C := by
    rw [← hC, Stem.candidates_eq]
    exact (Dict.WF.foldl_addI _ (fun u : Str × Str × Int => u.2.1) (fun u => u.2.2) Dict.wf_nil).filter _
  rw [hC] at hc h
  obtain ⟨ext, hext⟩ : ∃ ext, Stem.batchPrediction entLt s m f (Dict.keys C) = ext := ⟨_, rfl⟩
  rw [hext] at h
  have hew : ext.WF := by rw [← hext]; exact Stem.batchGo_wf _ _ _ _ _ _ Dict.wf_nil
  have hrow := getR_row hw hi hg
  have hget : ∀ l x, Dict.get? ext l = some x ↔ StemPasses lMax rMax c (KnownL lMax rMax c stems eomis) (KnownR lMax rMax c stems eomis) k e ignore m f l x := by
    intro l x
    have hnd : (sorted Stem.longerLe (Dict.keys C)).Nodup := (sorted_perm _ _).nodup_iff.2 hCw
    rw [← hext]
    unfold Stem.batchPrediction
    rw [Stem.get?_batchGo entLt s m f _ hnd [] (fun _ _ => rfl), mem_sorted, hc]
    have hsk : Stem.skipped s l = false ↔ ¬ KnownL lMax rMax c stems eomis l ∧ ¬ KnownR lMax rMax c stems eomis l ∧ l.length ≠ 1 ∧ ¬ (['다'] <:+ l) := by
      unfold Stem.skipped
      rw [Bool.or_eq_false_iff, Bool.or_eq_false_iff, Bool.or_eq_false_iff, ← Bool.not_eq_true, ← Bool.not_eq_true, contains_iff, contains_iff,
        decide_eq_false_iff_not, decide_eq_false_iff_not, k1, k2]
      have : l.getLast? = some '다' ↔ ['다'] <:+ l := by
        rw [List.getLast?_eq_some_iff]
        constructor
        · rintro ⟨a, rfl⟩; exact List.suffix_append _ _
        · rintro ⟨a, ha⟩; exact ⟨a, ha.symm⟩
      rw [this]
      constructor
      · rintro ⟨⟨⟨a, b⟩, c⟩, d⟩; exact ⟨a, b, c, d⟩
      · rintro ⟨a, b, c, d⟩; exact ⟨⟨⟨a, b⟩, c⟩, d⟩
    rw [hsk]
    unfold StemPasses
    have hne : ∀ row, RowOf lMax rMax c l row → (x = Stem.predict entLt s l m f ↔
        StemPrediction (KnownL lMax rMax c stems eomis) (KnownR lMax rMax c stems eomis) k e m f l row x) := by
      intro row hr
      have hp1 := hpr l m f row hr
      constructor
      · rintro rfl; exact hp1
      · intro hx
        obtain ⟨p1, p2⟩ := hp1
        obtain ⟨q1, q2⟩ := hx
        by_cases hN : Narrow (KnownL lMax rMax c stems eomis) (KnownR lMax rMax c stems eomis) k e l row
        · rw [p1 hN, q1 hN]
        · obtain ⟨a1, a2, a3⟩ := p2 hN
          obtain ⟨b1, b2, b3⟩ := q2 hN
          refine Prod.ext ?_ (b1.trans a1.symm)
          by_cases hf : stemSupport (KnownL lMax rMax c stems eomis) (KnownR lMax rMax c stems eomis) m l row < f
          · rw [a2 hf, b2 hf]
          · rw [a3 (not_lt.1 hf), b3 (not_lt.1 hf)]
    constructor
    · rintro (h | ⟨h1, h2, h3, h4⟩)
      · cases h
      · exact ⟨h1, h2.2.1, h2.2.2.1, h2.2.2.2, LR.getR g l (-1), hrow l, (hne _ (hrow l)).1 h3, h4⟩
    · rintro ⟨h1, h2, h3, h4, row, h5, h6, h7⟩
      exact .inr ⟨h1, ⟨h1.1, h2, h3, h4⟩, (hne row h5).2 h6, h7⟩
  have hrem : ∀ l, l ∈ Stem.removalsOf s ext ↔ l ∈ Dict.keys ext ∧ StemRemoved (KnownL lMax rMax c stems eomis) (KnownR lMax rMax c stems eomis) (· ∈ Dict.keys ext) l := by
    intro l
    unfold Stem.removalsOf StemRemoved
    have hhas : ∀ a, Dict.has ext a = true ↔ a ∈ Dict.keys ext := fun a => Dict.isSome_get?_iff ext a
    rw [List.mem_filter, Bool.or_eq_true]
    have r1 : Stem.isStemAndEomi s ext l = true ↔ ∃ a b d, l = a ++ b ++ d ∧ a ≠ [] ∧ b ≠ [] ∧ (KnownL lMax rMax c stems eomis a ∨ a ∈ Dict.keys ext) ∧ KnownR lMax rMax c stems eomis b := by
      unfold Stem.isStemAndEomi
      rw [List.any_eq_true]
      constructor
      · rintro ⟨i, hi1, h1⟩
        rw [List.mem_range'_1] at hi1
        rw [Bool.and_eq_true, Bool.or_eq_true, contains_iff, hhas, k1, List.any_eq_true] at h1
        obtain ⟨h1, j, hj, h2⟩ := h1
        rw [List.mem_range'_1] at hj
        rw [contains_iff, k2] at h2
        refine ⟨l.take i, (l.take j).drop i, l.drop j, ?_, ?_, ?_, h1, h2⟩
        · have : l.take i = (l.take j).take i := by rw [List.take_take, Nat.min_eq_left (by omega)]
          rw [this, List.take_append_drop, List.take_append_drop]
        · intro e0
          have := congrArg List.length e0
          rw [List.length_take, List.length_nil] at this
          omega
        · intro e0
          have := congrArg List.length e0
          rw [List.length_drop, List.length_take, List.length_nil] at this
          omega
      · rintro ⟨a, b, d, rfl, ha, hb, h1, h2⟩
        have p1 := List.length_pos_iff.2 ha
        have p2 := List.length_pos_iff.2 hb
        refine ⟨a.length, ?_, ?_⟩
        · rw [List.mem_range'_1, List.length_append, List.length_append]; omega
        · have t1 : (a ++ b ++ d).take a.length = a := by rw [List.append_assoc, List.take_left]
          rw [Bool.and_eq_true, Bool.or_eq_true, contains_iff, hhas, k1, List.any_eq_true, t1]
          refine ⟨h1, (a ++ b).length, ?_, ?_⟩
          · rw [List.mem_range'_1]; simp only [List.length_append]; omega
          · rw [contains_iff, List.take_left, List.drop_left, k2]; exact h2
    have r2 : Stem.existSubword ext l = true ↔ ∃ a b, l = a ++ b ∧ 2 ≤ a.length ∧ b ≠ [] ∧ a ∈ Dict.keys ext := by
      unfold Stem.existSubword
      rw [List.any_eq_true]
      constructor
      · rintro ⟨i, hi1, h1⟩
        rw [List.mem_range'_1] at hi1
        refine ⟨l.take i, l.drop i, (List.take_append_drop _ _).symm, ?_, ?_, (hhas _).1 h1⟩
        · rw [List.length_take]; omega
        · intro e0
          have := congrArg List.length e0
          rw [List.length_drop, List.length_nil] at this
          omega
      · rintro ⟨a, b, rfl, ha, hb, h1⟩
        have p2 := List.length_pos_iff.2 hb
        refine ⟨a.length, ?_, ?_⟩
        · rw [List.mem_range'_1, List.length_append]; omega
        · rw [List.take_left]; exact (hhas _).2 h1
    rw [r1, r2]
  obtain ⟨surf, hsurf⟩ : ∃ surf, ext.filter (fun x => !(Stem.removalsOf s ext).contains x.1) = surf := ⟨_, rfl⟩
  have hsw : Dict.WF surf := by rw [← hsurf]; exact hew.filter _
  have hsget : ∀ l x, Dict.get? surf l = some x ↔ Dict.get? ext l = some x ∧ l ∉ Stem.removalsOf s ext := by
    intro l x
    rw [← Dict.mem_iff_get? hsw, ← hsurf, List.mem_filter, Dict.mem_iff_get? hew, Bool.not_eq_true', ← Bool.not_eq_true, contains_iff]
  unfold Stem.postProcessing at h
  dsimp only at h
  rw [hsurf] at h
  have e1 := congrArg Prod.fst h
  have e2 := congrArg Prod.snd h
  dsimp only at e1 e2
  rw [e2] at e1
  refine ⟨ext, surf, Stem.removalsOf s ext, by rw [← e1], by rw [← e1], hew, hsw, hget, hrem, hsget, e2.symm, by rw [← e1], by rw [← e1]; exact hsg, by rw [← e1]; exact hse⟩

/-- C60: for every threshold, positive or not: the accepted surfaces are those whose prediction reaches both thresholds, those beginning with others are
    removed, and every stem reported is read from a remaining surface with an ending that is not known. (The two numbers reported are then not determined: see
    the last example.) -/
theorem C60_surfaces (enumR : List Str → List Str) (hE : ∀ l, (enumR l).Perm l) (enumL : List (Str × Str) → List (Str × Str)) (hL : ∀ l, (enumL l).Perm l)
    (ignore : List Str) (m : Rat) (f : Int) (s' : Stem.State) (out : Dict Str (Rat × Rat))
    (h : Stem.extract entLt enumR enumL (Stem.construct g stems eomis k e) ignore m f = (s', out)) :
    ∃ ext surf : Dict Str (Rat × Int), ∃ rem, s'.surfaces = some surf ∧ s'.removals = some rem ∧ ext.WF ∧ surf.WF ∧
      (∀ l x, Dict.get? ext l = some x ↔ StemPasses lMax rMax c (KnownL lMax rMax c stems eomis) (KnownR lMax rMax c stems eomis) k e ignore m f l x) ∧
      (∀ l, l ∈ rem ↔ l ∈ Dict.keys ext ∧ StemRemoved (KnownL lMax rMax c stems eomis) (KnownR lMax rMax c stems eomis) (· ∈ Dict.keys ext) l) ∧
      (∀ l x, Dict.get? surf l = some x ↔ Dict.get? ext l = some x ∧ l ∉ rem) ∧
      (∀ y ∈ Dict.keys out, ∃ l r eomi t f0, StemReading lMax rMax c eomis surf y l r eomi t f0) ∧ (∀ y, y ∈ s'.stems ↔ y ∈ Dict.keys out) := by
  obtain ⟨ext, surf, rem, a1, a2, a3, a4, a5, a6, a7, a8, a9, _⟩ := surfaces_spec lMax rMax c hw hp g hi hg stems eomis k e entLt hent enumR hE enumL ignore m f s' out h
  refine ⟨ext, surf, rem, a1, a2, a3, a4, a5, a6, a7, ?_, fun y => by rw [a9]⟩
  intro y hy
  rw [a8] at hy
  obtain ⟨l, r, eomi, t, f0, n, h1, h2, h3, cs, h4, h5⟩ := Stem.keys_toStem enumL hL (Stem.construct g stems eomis k e) hi a4 y hy
  exact ⟨l, r, eomi, t, f0, h1, ⟨n, (edge_iff hw hg l r n).1 h2⟩, h3, cs, h4, h5⟩

/-- C60: the extraction, for a positive score threshold: the accepted surfaces, those removed again, and the stems read from the rest. -/
theorem C60_extract (enumR : List Str → List Str) (hE : ∀ l, (enumR l).Perm l) (enumL : List (Str × Str) → List (Str × Str)) (hL : ∀ l, (enumL l).Perm l)
    (ignore : List Str) (m : Rat) (hm : 0 < m) (f : Int) (s' : Stem.State) (out : Dict Str (Rat × Rat))
    (h : Stem.extract entLt enumR enumL (Stem.construct g stems eomis k e) ignore m f = (s', out)) :
    ∃ ext surf : Dict Str (Rat × Int), ∃ rem, s'.surfaces = some surf ∧ s'.removals = some rem ∧ ext.WF ∧ surf.WF ∧ out.WF ∧
      (∀ l x, Dict.get? ext l = some x ↔ StemAccepted lMax rMax c (KnownL lMax rMax c stems eomis) (KnownR lMax rMax c stems eomis) k e ignore m f l x) ∧
      (∀ l, l ∈ rem ↔ l ∈ Dict.keys ext ∧ StemRemoved (KnownL lMax rMax c stems eomis) (KnownR lMax rMax c stems eomis) (· ∈ Dict.keys ext) l) ∧
      (∀ l x, Dict.get? surf l = some x ↔ Dict.get? ext l = some x ∧ l ∉ rem) ∧
      (∀ y x, Dict.get? out y = some x ↔ StemEntry lMax rMax c eomis surf y x) ∧
      (∀ y, y ∈ s'.stems ↔ y ∈ Dict.keys out) ∧ s'.lrgraph = g ∧ s'.eomis = eomis := by
  obtain ⟨ext, surf, rem, a1, a2, hew, hsw, hget0, hrem, hsget, e2, a9, a10, a11⟩ := surfaces_spec lMax rMax c hw hp g hi hg stems eomis k e entLt hent enumR hE enumL ignore m f s' out h
  have hget : ∀ l x, Dict.get? ext l = some x ↔ StemAccepted lMax rMax c (KnownL lMax rMax c stems eomis) (KnownR lMax rMax c stems eomis) k e ignore m f l x := by
    intro l x
    rw [hget0]
    unfold StemPasses StemAccepted
    refine and_congr_right (fun _ => and_congr_right (fun _ => and_congr_right (fun _ => and_congr_right (fun _ => exists_congr (fun row => and_congr_right (fun hr => ?_))))))
    unfold StemPrediction
    constructor
    · rintro ⟨⟨p1, p2⟩, h2, h3⟩
      by_cases hN : Narrow (KnownL lMax rMax c stems eomis) (KnownR lMax rMax c stems eomis) k e l row
      · rw [p1 hN] at h2
        exact absurd h2 (not_le.2 hm)
      · obtain ⟨q1, q2, q3⟩ := p2 hN
        refine ⟨hN, ?_, h2, h3⟩
        have q4 := q3 (by rw [← q1]; exact h3)
        refine Prod.ext q4 ?_
        rw [q1]
        unfold stemSupport
        rw [if_pos (by rw [← q4]; exact h2)]
    · rintro ⟨hN, h1, h2, h3⟩
      have hsup : stemSupport (KnownL lMax rMax c stems eomis) (KnownR lMax rMax c stems eomis) m l row = x.2 := by
        unfold stemSupport
        rw [if_pos (by rw [h1] at h2; exact h2), h1]
      refine ⟨⟨fun h => absurd h hN, fun _ => ⟨hsup.symm, ?_, ?_⟩⟩, h2, h3⟩
      · rw [hsup]; intro h4; exact absurd h3 (not_le.2 h4)
      · intro _; rw [h1]
  have hsg : (Stem.construct g stems eomis k e).lrgraph = g := rfl
  have hse : (Stem.construct g stems eomis k e).eomis = eomis := rfl
  have e2 := e2.symm
  generalize hs : Stem.construct g stems eomis k e = s at *
  have hpos : ∀ u ∈ surf, 0 < u.2.1 := by
    rintro ⟨l, x⟩ hu
    have := (hget l x).1 ((hsget l x).1 ((Dict.mem_iff_get? hsw).1 hu)).1
    obtain ⟨_, _, _, _, _, _, _, _, h4, _⟩ := this
    exact lt_of_lt_of_le hm h4
  rw [Stem.toStem_eq enumL s surf hpos, hse, hsg] at e2
  have hmem := Stem.mem_allReadings enumL hL eomis hi hsw
  have hnd := Stem.nodup_allReadings enumL hL eomis hi hsw
  generalize hLs : Stem.allReadings enumL eomis g surf = U at *
  have hread : ∀ l r y eomi t (f0 : Int), (((l, r), (y, eomi)), t, (f0 : Rat)) ∈ U ↔ StemReading lMax rMax c eomis surf y l r eomi t f0 := by
    intro l r y eomi t f0
    rw [hmem]
    unfold StemReading
    constructor
    · rintro ⟨⟨f1, a1, a2⟩, ⟨n, a3⟩, a4, a5⟩
      have : f0 = f1 := by exact_mod_cast a2
      subst this
      exact ⟨a1, ⟨n, (edge_iff hw hg l r n).1 a3⟩, a4, a5⟩
    · rintro ⟨a1, ⟨n, a3⟩, a4, a5⟩
      exact ⟨⟨f0, a1, rfl⟩, ⟨n, (edge_iff hw hg l r n).2 a3⟩, a4, a5⟩
  have hint : ∀ u ∈ U, ∃ f0 : Int, u.2.2 = (f0 : Rat) ∧ 0 < u.2.1 := by
    rintro ⟨⟨⟨l, r⟩, y, eomi⟩, t, v⟩ hu
    obtain ⟨⟨f1, a1, a2⟩, _⟩ := (hmem l r y eomi t v).1 hu
    exact ⟨f1, a2, hpos _ (Dict.mem_of_get? a1)⟩
  obtain ⟨w1, w2, w3⟩ := Stem.mstep_spec U (fun u hu => by obtain ⟨_, _, h⟩ := hint u hu; exact h) [] Dict.wf_nil (by intro y x h; cases h)
  rw [e2] at w1 w2 w3
  refine ⟨ext, surf, rem, a1, a2, hew, hsw, w1, hget, hrem, hsget, ?_, fun y => by rw [a9], a10, a11⟩
  · intro y x
    obtain ⟨q1, q2, q3⟩ := w3 y
    have z1 : (Dict.getD ([] : Dict Str (Rat × Rat)) y (0, 0)) = (0, 0) := rfl
    rw [z1] at q2 q3
    simp only [zero_mul, zero_add] at q2 q3
    obtain ⟨K, hK⟩ : ∃ K : List ((Str × Str × Str) × Rat × Int), K =
        (U.filter (fun u => decide (u.1.2.1 = y))).map (fun u => ((u.1.1.1, u.1.1.2, u.1.2.2), u.2.1, u.2.2.num)) := ⟨_, rfl⟩
    have hKn : K.Nodup := by
      rw [hK]
      refine (List.nodup_map_iff_inj_on (hnd.filter _)).2 ?_
      rintro ⟨⟨⟨l, r⟩, y1, eomi⟩, t, v⟩ hu ⟨⟨⟨l', r'⟩, y2, eomi'⟩, t', v'⟩ hu' he
      have c1 := of_decide_eq_true (List.mem_filter.1 hu).2
      have c2 := of_decide_eq_true (List.mem_filter.1 hu').2
      obtain ⟨f0, i1, _⟩ := hint _ (List.mem_filter.1 hu).1
      obtain ⟨f1, i2, _⟩ := hint _ (List.mem_filter.1 hu').1
      dsimp only at c1 c2 he i1 i2
      rw [i1, i2, Rat.num_intCast, Rat.num_intCast] at he
      simp only [Prod.mk.injEq] at he ⊢
      obtain ⟨⟨a1, a2, a3⟩, a4, a5⟩ := he
      exact ⟨⟨⟨a1, a2⟩, c1.trans c2.symm, a3⟩, a4, by rw [i1, i2, a5]⟩
    have hKm : ∀ l r eomi t f0, ((l, r, eomi), t, f0) ∈ K ↔ StemReading lMax rMax c eomis surf y l r eomi t f0 := by
      intro l r eomi t f0
      rw [hK, ← hread]
      constructor
      · intro hu
        obtain ⟨⟨⟨⟨l', r'⟩, y', eomi'⟩, t', v'⟩, hm1, he⟩ := List.mem_map.1 hu
        obtain ⟨m1, m2⟩ := List.mem_filter.1 hm1
        have c1 := of_decide_eq_true m2
        obtain ⟨f1, i1, _⟩ := hint _ m1
        dsimp only at c1 he i1
        rw [i1, Rat.num_intCast] at he
        simp only [Prod.mk.injEq] at he
        obtain ⟨⟨a1, a2, a3⟩, a4, a5⟩ := he
        subst a1; subst a2; subst a3; subst a4; subst a5; subst c1; subst i1
        exact m1
      · intro hu
        exact List.mem_map.2 ⟨_, List.mem_filter.2 ⟨hu, by simp⟩, by dsimp only; rw [Rat.num_intCast]⟩
    have hs1 : (K.map (fun k => k.2.1)).sum = ((U.filter (fun u => decide (u.1.2.1 = y))).map (fun u => u.2.1)).sum := by
      rw [hK, List.map_map]; rfl
    have hs2 : (K.map (fun k => (k.2.2 : Rat) * k.2.1)).sum = ((U.filter (fun u => decide (u.1.2.1 = y))).map (fun u => u.2.2 * u.2.1)).sum := by
      rw [hK, List.map_map]
      congr 1
      apply List.map_congr_left
      intro u hu
      obtain ⟨f1, i1, _⟩ := hint u (List.mem_filter.1 hu).1
      show ((u.2.2.num : Int) : Rat) * u.2.1 = _
      rw [i1, Rat.num_intCast]
    have hKe : K ≠ [] ↔ y ∈ Dict.keys out := by
      rw [q1, hK]
      constructor
      · intro hne
        obtain ⟨u, hu⟩ := List.exists_mem_of_ne_nil _ hne
        obtain ⟨v, hv, _⟩ := List.mem_map.1 hu
        exact .inr ⟨v, (List.mem_filter.1 hv).1, of_decide_eq_true (List.mem_filter.1 hv).2⟩
      · rintro (hh | ⟨u, hu, he⟩) hnil
        · simp [Dict.keys] at hh
        · have := List.map_eq_nil_iff.1 hnil
          have hh : u ∈ U.filter (fun u => decide (u.1.2.1 = y)) := List.mem_filter.2 ⟨hu, decide_eq_true he⟩
          rw [this] at hh
          cases hh
    constructor
    · intro hx
      have hgd : Dict.getD out y (0, 0) = x := by show (Dict.get? out y).getD (0, 0) = x; rw [hx]; rfl
      rw [hgd] at q2 q3
      exact ⟨K, hKn, hKm, hKe.2 (by rw [← Dict.isSome_get?_iff, hx]; rfl), by rw [hs1]; exact q2, by rw [hs2]; exact q3⟩
    · rintro ⟨K', hn', hm', hne', hf', hs'⟩
      have hper : K'.Perm K := by
        rw [List.perm_ext_iff_of_nodup hn' hKn]
        rintro ⟨⟨l, r, eomi⟩, t, f0⟩
        rw [hm', hKm]
      have hne : K ≠ [] := by
        intro h0
        rw [h0] at hper
        exact hne' hper.eq_nil
      obtain ⟨x', hx'⟩ := Option.isSome_iff_exists.1 ((Dict.isSome_get?_iff _ _).2 (hKe.1 hne))
      have hgd : Dict.getD out y (0, 0) = x' := by show (Dict.get? out y).getD (0, 0) = x'; rw [hx']; rfl
      rw [hgd] at q2 q3
      rw [(hper.map _).sum_eq, hs1, ← q2] at hf'
      rw [(hper.map _).sum_eq, hs2, ← q3, hf'] at hs'
      have hp0 := w2 y x' hx'
      have : x.2 = x'.2 := mul_right_cancel₀ (ne_of_gt hp0) hs'
      rw [hx', Prod.ext hf' this]

/-- C60: the result does not depend on the order in which the sets are enumerated. -/
theorem C60_order (enumR enumR' : List Str → List Str) (hE : ∀ l, (enumR l).Perm l) (hE' : ∀ l, (enumR' l).Perm l)
    (enumL enumL' : List (Str × Str) → List (Str × Str)) (hL : ∀ l, (enumL l).Perm l) (hL' : ∀ l, (enumL' l).Perm l) (ignore : List Str) (m : Rat) (hm : 0 < m) (f : Int) :
    (Stem.extract entLt enumR enumL (Stem.construct g stems eomis k e) ignore m f).2.Perm (Stem.extract entLt enumR' enumL' (Stem.construct g stems eomis k e) ignore m f).2 := by
  obtain ⟨ext, surf, rem, _, _, _, w2, w3, a1, a2, a3, a4, _⟩ := C60_extract lMax rMax c hw hp g hi hg stems eomis k e entLt hent enumR hE enumL hL ignore m hm f _ _ rfl
  obtain ⟨ext', surf', rem', _, _, _, w2', w3', b1, b2, b3, b4, _⟩ := C60_extract lMax rMax c hw hp g hi hg stems eomis k e entLt hent enumR' hE' enumL' hL' ignore m hm f _ _ rfl
  have h1 : ∀ l x, Dict.get? ext l = some x ↔ Dict.get? ext' l = some x := fun l x => by rw [a1, b1]
  have hk : ∀ l, l ∈ Dict.keys ext ↔ l ∈ Dict.keys ext' := by
    intro l
    rw [← Dict.isSome_get?_iff, ← Dict.isSome_get?_iff, Option.isSome_iff_exists, Option.isSome_iff_exists]
    exact exists_congr (fun x => h1 l x)
  have hk' : (fun l => l ∈ Dict.keys ext) = (fun l => l ∈ Dict.keys ext') := funext (fun l => propext (hk l))
  have h2 : ∀ l, l ∈ rem ↔ l ∈ rem' := fun l => by rw [a2, b2, hk, hk']
  have h3 : ∀ l x, Dict.get? surf l = some x ↔ Dict.get? surf' l = some x := fun l x => by rw [a3, b3, h1, h2]
  apply Dict.perm_of_get? w3 w3'
  intro y
  apply Option.ext
  intro x
  show Dict.get? _ y = some x ↔ Dict.get? _ y = some x
  rw [a4, b4]
  unfold StemEntry StemReading
  simp only [h3]

end

/-- C60: extracting again with the same arguments changes nothing. -/
theorem C60_again (entLt : List Int → Rat → Bool) (enumR : List Str → List Str) (enumL : List (Str × Str) → List (Str × Str)) (s : Stem.State) (ignore : List Str) (m : Rat) (f : Int) :
    Stem.extract entLt enumR enumL (Stem.extract entLt enumR enumL s ignore m f).1 ignore m f = Stem.extract entLt enumR enumL s ignore m f := by
  have hb : ∀ (a : List Str) (b : Option (Dict Str (Rat × Int))) (r : Option (List Str)) (ls : List Str) (d : Dict Str (Rat × Int)),
      Stem.batchGo entLt { s with stems := a, surfaces := b, removals := r } m f d ls = Stem.batchGo entLt s m f d ls := by
    intro a b r ls
    induction ls with
    | nil => intro d; rfl
    | cons l ls ih =>
      intro d
      unfold Stem.batchGo
      rw [ih, ih]
      rfl
  have hc : ∀ (a : List Str) (b : Option (Dict Str (Rat × Int))) (r : Option (List Str)) rs,
      Stem.candidates { s with stems := a, surfaces := b, removals := r } ignore rs = Stem.candidates s ignore rs := fun _ _ _ _ => rfl
  have hp : ∀ (a : List Str) (b : Option (Dict Str (Rat × Int))) (r : Option (List Str)) x,
      Stem.postProcessing { s with stems := a, surfaces := b, removals := r } x = Stem.postProcessing s x := fun _ _ _ _ => rfl
  have ht : ∀ (a : List Str) (b : Option (Dict Str (Rat × Int))) (r : Option (List Str)) x,
      Stem.toStem enumL { s with stems := a, surfaces := b, removals := r } x = Stem.toStem enumL s x := fun _ _ _ _ => rfl
  unfold Stem.extract Stem.batchPrediction
  dsimp only
  simp only [hc, hb, hp, ht]

/-- C60: a reported stem has a form, with an ending that is *not* among the known ones, that is a counted eojeol. -/
theorem C60_sound (lMax rMax : Int) (c : Dict Str Int) (eomis : List Str) (surf : Dict Str (Rat × Int)) (y : Str) (x : Rat × Rat)
    (h : StemEntry lMax rMax c eomis surf y x) : ∃ eomi forms w n, eomi ≠ [] ∧ eomi ∉ eomis ∧ conjugate y eomi = .ok forms ∧ w ∈ forms ∧ Dict.get? c w = some n := by
  obtain ⟨K, _, hm, hne, _⟩ := h
  obtain ⟨⟨⟨l, r, eomi⟩, t, f⟩, hu⟩ := List.exists_mem_of_ne_nil _ hne
  obtain ⟨_, ⟨n, h2⟩, h3, cs, h4, h5⟩ := (hm l r eomi t f).1 hu
  obtain ⟨h6, forms, h7, h8⟩ := lemmaCandidate_sound h4 _ h5
  exact ⟨eomi, forms, l ++ r, n, h6, h3, h7, h8, h2.2.2.2⟩

/-- C60: a stem that accepted surfaces are read as with known endings only is not reported. -/
theorem C60_known_lost (lMax rMax : Int) (c : Dict Str Int) (eomis : List Str) (surf : Dict Str (Rat × Int)) (y : Str)
    (h : ∀ l r eomi n cs, l ∈ Dict.keys surf → EomiSplit lMax rMax c l r n → lemmaCandidate l r = .ok cs → (y, eomi) ∈ cs → eomi ∈ eomis) (x : Rat × Rat) :
    ¬ StemEntry lMax rMax c eomis surf y x := by
  rintro ⟨K, _, hm, hne, _⟩
  obtain ⟨⟨⟨l, r, eomi⟩, t, f⟩, hu⟩ := List.exists_mem_of_ne_nil _ hne
  obtain ⟨h1, ⟨n, h2⟩, h3, cs, h4, h5⟩ := (hm l r eomi t f).1 hu
  exact h3 (h l r eomi n cs (by rw [← Dict.isSome_get?_iff, h1]; rfl) h2 h4 h5)

/-! ### concrete -/

def stemCounter : Dict Str Int := [("먹는다".toList, 3), ("먹고서".toList, 2), ("먹지만".toList, 2), ("던지는다".toList, 4), ("던지고서".toList, 3), ("던지지만".toList, 2), ("던지네".toList, 2)]
def stemRun (eomis : List Str) : Option (List Str × List Str × List (Str × Rat × Int) × List (Str × Rat × Rat)) :=
  match LR.construct (LR.lrOfCounter 10 9 stemCounter) with
  | .ok g =>
    let s := Stem.construct g ["먹".toList] eomis 3 (-1)
    let p := Stem.extract (fun _ _ => false) id id s [] (7/10) 5
    some (s.L.dedup, s.R.dedup, (p.1.surfaces.getD [] : List (Str × Rat × Int)), (p.2 : List (Str × Rat × Rat)))
  | .error _ => none

set_option synthInstance.maxSize 1000
set_option synthInstance.maxHeartbeats 200000
/-- 던지 is accepted with score 1 and support 9, and reported, because 네 is not a known ending; the two numbers are score and support, not frequency and score -/
example : stemRun ["는다".toList, "고서".toList, "지만".toList] =
    some (["먹".toList], ["는다".toList, "고서".toList, "지만".toList], [("던지".toList, 1, 9)], [("던지".toList, 1, 9)]) := by decide +kernel
/-- with all four endings known, 던지 is still accepted, and the result is empty -/
example : stemRun ["는다".toList, "고서".toList, "지만".toList, "네".toList] =
    some (["먹".toList], ["는다".toList, "고서".toList, "지만".toList], [("던지".toList, 1, 9)], []) := by decide +kernel
/-- a comparison as the theorems ask for exists -/
example : ∃ entLt : List Int → Rat → Bool, ∀ cs x, entLt cs x = true ↔ countEntropy cs < (x : ℝ) :=
  ⟨fun cs x => @decide (countEntropy cs < (x : ℝ)) (Classical.propDecidable _), fun cs x => @decide_eq_true_iff _ (_)⟩

def zeroCounter : Dict Str Int := [("먹는다".toList, 3), ("가서".toList,2), ("던지는다".toList, 3), ("던지".toList, 1), ("던지네".toList, 1), ("던져서".toList, 1), ("던져".toList, 3)]
def zeroRun (enumR : List Str → List Str) : Option (List (Str × Rat × Int) × List (Str × Rat × Rat)) :=
  match LR.construct (LR.lrOfCounter 10 9 zeroCounter) with
  | .ok g =>
    let s := Stem.construct g ["먹".toList, "가".toList] ["는다".toList, "아서".toList] 0 (-1)
    let p := Stem.extract (fun _ _ => false) enumR id s [] (-1) 1
    some ((p.1.surfaces.getD [] : List (Str × Rat × Int)), (p.2 : List (Str × Rat × Rat)))
  | .error _ => none
/-- with the threshold −1 the scores of two surfaces of one stem cancel, the division by zero is caught, and the numbers reported for 던지 depend on the order
    in which the set of ending surfaces is enumerated -/
example : zeroRun id = some ([("던지".toList, 1/2, 3), ("던져".toList, -1/2, 1)], [("던지".toList, 1/2, 3), ("던져".toList, -1/2, 1)]) ∧
    zeroRun List.reverse = some ([("던져".toList, -1/2, 1), ("던지".toList, 1/2, 3)], [("던지".toList, -1/2, -1), ("던져".toList, -1/2, 1)]) := by decide +kernel

end Props
