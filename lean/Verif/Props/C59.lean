import Verif.Proofs.Eomi2
import Verif.Props.C58
import Verif.Proofs.Lemmatizer
import Mathlib.Tactic.Linarith
/-! C59: `EomiExtractor` scores every ending candidate on the eojeols no longer accepted candidate took, and reads the accepted ones as
    endings of known stems. -/
set_option linter.unusedSimpArgs false
set_option linter.unusedVariables false
namespace Props
open Py Nested Lemma

/-! ### specification -/

/-- the strings a form of one of the stems may begin with (C58 says which these are) -/
def SurfaceOf (stems : List Str) (l : Str) : Prop := ∃ stem ∈ stems, ∃ out, conjugateStem stem = .ok out ∧ l ∈ out

/-- a surface, or a known one-letter noun followed by one -/
def StemLike (S : Str → Prop) (nouns : List Str) (l : Str) : Prop := S l ∨ ∃ ch l', l = ch :: l' ∧ [ch] ∈ nouns ∧ S l'

/-- a surface reaches further into the eojeol than `l` does -/
def LongerSurface (S : Str → Prop) (l r : Str) : Prop := ∃ a b, a ≠ [] ∧ r = a ++ b ∧ S (l ++ a)

/-- `l` ends with a surface, without being one -/
def SurfaceAtEnd (S : Str → Prop) (l : Str) : Prop := ∃ a b, a ≠ [] ∧ b ≠ [] ∧ l = a ++ b ∧ S b

/-- the eojeol counts at all: it is no noun, and no longer surface explains it -/
def Counts (S : Str → Prop) (nouns : List Str) (r l : Str) : Prop := l ++ r ∉ nouns ∧ ¬ LongerSurface S l r

def ForEnding (S : Str → Prop) (nouns : List Str) (r l : Str) : Prop := Counts S nouns r l ∧ StemLike S nouns l
def Unclear (S : Str → Prop) (nouns : List Str) (r l : Str) : Prop := Counts S nouns r l ∧ ¬ StemLike S nouns l ∧ SurfaceAtEnd S l
def AgainstEnding (S : Str → Prop) (nouns : List Str) (r l : Str) : Prop := Counts S nouns r l ∧ ¬ StemLike S nouns l ∧ ¬ SurfaceAtEnd S l

open Classical in
/-- the prediction for `r` from its left parts `col` (with counts): too few different surfaces give nothing; else the score compares the
    counts for and against, and the support adds the unclear ones to those of the winning side -/
structure EomiPrediction (S : Str → Prop) (nouns : List Str) (k : Int) (m : Rat) (r : Str) (col : List (Str × Int)) (x : Int × Rat) : Prop where
  few : ((col.filter (fun lc => decide (S lc.1 ∧ ¬ LongerSurface S lc.1 r))).length : Int) < k → x = (0, 0)
  score : k ≤ ((col.filter (fun lc => decide (S lc.1 ∧ ¬ LongerSurface S lc.1 r))).length : Int) →
    x.2 = if LR.wsum col (ForEnding S nouns r) + LR.wsum col (AgainstEnding S nouns r) = 0 then 0
      else ((LR.wsum col (ForEnding S nouns r) - LR.wsum col (AgainstEnding S nouns r) : Int) : Rat) /
        ((LR.wsum col (ForEnding S nouns r) + LR.wsum col (AgainstEnding S nouns r) : Int) : Rat)
  support : k ≤ ((col.filter (fun lc => decide (S lc.1 ∧ ¬ LongerSurface S lc.1 r))).length : Int) →
    x.1 = (if m ≤ x.2 then LR.wsum col (ForEnding S nouns r) else LR.wsum col (AgainstEnding S nouns r)) + LR.wsum col (Unclear S nouns r)

/-- the eojeol `l ++ r`, counted `n` times in `c`, is split into `l` and `r` -/
def EomiSplit (lMax rMax : Int) (c : Dict Str Int) (l r : Str) (n : Int) : Prop :=
  l ≠ [] ∧ (l.length : Int) ≤ lMax ∧ (r.length : Int) ≤ rMax ∧ Dict.get? c (l ++ r) = some n

/-- a longer candidate than `r` with a score of at least `m` has taken the eojeol `e`, which is split into a stem-like left part and it -/
def EomiTaken (lMax rMax : Int) (c : Dict Str Int) (S : Str → Prop) (nouns : List Str) (m : Rat) (d : Dict Str (Int × Rat)) (r e : Str) : Prop :=
  ∃ r' x l n, Dict.get? d r' = some x ∧ m ≤ x.2 ∧ r.length < r'.length ∧ l ++ r' = e ∧ StemLike S nouns l ∧ EomiSplit lMax rMax c l r' n

/-- the table of predictions: an entry for every right part of an eojeol whose left part is a surface, if it ends as the condition asks -/
structure EomiTable (lMax rMax : Int) (c : Dict Str Int) (S : Str → Prop) (nouns : List Str) (k : Int) (m : Rat) (condition : Str)
    (d : Dict Str (Int × Rat)) : Prop where
  wf : Dict.WF d
  cands : ∀ r, r ∈ Dict.keys d ↔ condition <:+ r ∧ ∃ l n, S l ∧ EomiSplit lMax rMax c l r n
  entry : ∀ r x, Dict.get? d r = some x → ∃ col : List (Str × Int), col.Nodup ∧
    (∀ l n, (l, n) ∈ col ↔ r ≠ [] ∧ EomiSplit lMax rMax c l r n ∧ ¬ EomiTaken lMax rMax c S nouns m d r (l ++ r)) ∧ EomiPrediction S nouns k m r col x

/-- the eojeol `l ++ r`, counted `n` times, with `r` accepted at score `s`, is read as the known stem `stem` with the ending `y` -/
def Reading (lMax rMax : Int) (c : Dict Str Int) (stems : List Str) (m : Rat) (d : Dict Str (Int × Rat)) (y : Str) (r l stem : Str) (n : Int) (s : Rat) : Prop :=
  (∃ f, Dict.get? d r = some (f, s)) ∧ m ≤ s ∧ r ≠ [] ∧ EomiSplit lMax rMax c l r n ∧ stem ∈ stems ∧ ∃ cs, lemmaCandidate l r = .ok cs ∧ (stem, y) ∈ cs

/-- the frequency of an ending is the sum of the counts of its readings, its score their weighted mean -/
def EomiEntry (lMax rMax : Int) (c : Dict Str Int) (stems : List Str) (m : Rat) (d : Dict Str (Int × Rat)) (y : Str) (x : Int × Rat) : Prop :=
  ∃ K : List ((Str × Str × Str) × Int × Rat), K.Nodup ∧ (∀ r l stem n s, ((r, l, stem), n, s) ∈ K ↔ Reading lMax rMax c stems m d y r l stem n s) ∧
    K ≠ [] ∧ x.1 = (K.map (fun k => k.2.1)).sum ∧ x.2 * (x.1 : Rat) = (K.map (fun k => k.2.2 * (k.2.1 : Rat))).sum

/-! ### proofs -/

theorem mem_stemSurfaces {stems S : List Str} (h : Eomi.stemSurfaces stems = .ok S) : ∀ l, l ∈ S ↔ SurfaceOf stems l := by
  induction stems generalizing S with
  | nil => intro l; cases h; simp [SurfaceOf]
  | cons s ss ih =>
    intro l
    unfold Eomi.stemSurfaces at h
    cases ha : conjugateStem s with
    | error e => rw [ha] at h; cases h
    | ok a =>
      rw [ha] at h
      dsimp only at h
      obtain ⟨b, hb, rfl⟩ := map_ok h
      rw [List.mem_append, ih hb]
      unfold SurfaceOf
      constructor
      · rintro (h | ⟨st, h1, h2⟩)
        · exact ⟨s, by simp, a, ha, h⟩
        · exact ⟨st, by simp [h1], h2⟩
      · rintro ⟨st, h1, out, h2, h3⟩
        rcases List.mem_cons.1 h1 with rfl | h1
        · rw [ha] at h2; cases h2; exact .inl h3
        · exact .inr ⟨st, h1, out, h2, h3⟩

section
variable {S : List Str} {nouns : List Str}

private theorem contains_iff {l : Str} {S : List Str} : S.contains l = true ↔ l ∈ S := by simp

private theorem isNounVerb_iff {l : Str} : Eomi.isNounVerb S nouns l = true ↔ ∃ ch l', l = ch :: l' ∧ [ch] ∈ nouns ∧ l' ∈ S := by
  cases l with
  | nil => simp [Eomi.isNounVerb]
  | cons a l =>
    unfold Eomi.isNounVerb
    rw [Bool.and_eq_true, contains_iff, contains_iff]
    constructor
    · rintro ⟨h1, h2⟩; exact ⟨a, l, rfl, h1, h2⟩
    · rintro ⟨ch, l', e, h1, h2⟩; cases e; exact ⟨h1, h2⟩

private theorem takes_iff {l : Str} : Eomi.takes S nouns l = true ↔ StemLike (· ∈ S) nouns l := by
  unfold Eomi.takes StemLike
  rw [Bool.or_eq_true, isNounVerb_iff, contains_iff]

private theorem existLonger_iff {l r : Str} : Eomi.existLongerPos S l r = true ↔ LongerSurface (· ∈ S) l r := by
  unfold Eomi.existLongerPos LongerSurface
  rw [List.any_eq_true]
  constructor
  · rintro ⟨i, hi, h⟩
    rw [List.mem_range'_1] at hi
    refine ⟨r.take i, r.drop i, ?_, (List.take_append_drop i r).symm, contains_iff.1 h⟩
    intro e
    have := congrArg List.length e
    rw [List.length_take] at this
    rw [List.length_nil] at this
    omega
  · rintro ⟨a, b, ha, rfl, h⟩
    refine ⟨a.length, ?_, ?_⟩
    · rw [List.mem_range'_1]
      have := List.length_pos_iff.2 ha
      rw [List.length_append]; omega
    · rw [List.take_left]; exact contains_iff.2 h

private theorem hasStem_iff {l : Str} : Eomi.hasStemAtLast S l = true ↔ SurfaceAtEnd (· ∈ S) l := by
  unfold Eomi.hasStemAtLast SurfaceAtEnd
  rw [List.any_eq_true]
  constructor
  · rintro ⟨i, hi, h⟩
    rw [List.mem_range'_1] at hi
    refine ⟨l.take (l.length - i), l.drop (l.length - i), ?_, ?_, (List.take_append_drop _ l).symm, contains_iff.1 h⟩
    · intro e
      have := congrArg List.length e
      rw [List.length_take] at this
      rw [List.length_nil] at this
      omega
    · intro e
      have := congrArg List.length e
      rw [List.length_drop] at this
      rw [List.length_nil] at this
      omega
  · rintro ⟨a, b, ha, hb, rfl, h⟩
    have h1 := List.length_pos_iff.2 ha
    have h2 := List.length_pos_iff.2 hb
    refine ⟨b.length, ?_, ?_⟩
    · rw [List.mem_range'_1, List.length_append]; omega
    · rw [show (a ++ b).length - b.length = a.length by rw [List.length_append]; omega, List.drop_left]; exact contains_iff.2 h

private theorem tally_eq (r : Str) (col : List (Str × Int)) (t : Eomi.Tally) :
    col.foldl (Eomi.tallyStep S nouns r) t = ⟨t.pos + LR.wsum col (ForEnding (· ∈ S) nouns r), t.neg + LR.wsum col (AgainstEnding (· ∈ S) nouns r),
      t.unk + LR.wsum col (Unclear (· ∈ S) nouns r)⟩ := by
  classical
  induction col generalizing t with
  | nil => obtain ⟨a, b, c⟩ := t; simp [LR.wsum]
  | cons f col ih =>
    rw [List.foldl_cons, ih, LR.wsum_cons, LR.wsum_cons, LR.wsum_cons]
    unfold Eomi.tallyStep
    by_cases h1 : f.1 ++ r ∈ nouns
    · have n : ¬ Counts (· ∈ S) nouns r f.1 := fun h => h.1 h1
      rw [if_pos (contains_iff.2 h1), if_neg (fun h => n h.1), if_neg (fun h => n h.1), if_neg (fun h => n h.1)]
      simp
    · rw [if_neg (fun h => h1 (contains_iff.1 h))]
      by_cases h2 : LongerSurface (· ∈ S) f.1 r
      · have n : ¬ Counts (· ∈ S) nouns r f.1 := fun h => h.2 h2
        rw [if_pos (existLonger_iff.2 h2), if_neg (fun h => n h.1), if_neg (fun h => n h.1), if_neg (fun h => n h.1)]
        simp
      · rw [if_neg (fun h => h2 (existLonger_iff.1 h))]
        have hc : Counts (· ∈ S) nouns r f.1 := ⟨h1, h2⟩
        by_cases h3 : StemLike (· ∈ S) nouns f.1
        · rw [if_pos (show ForEnding _ _ _ _ from ⟨hc, h3⟩), if_neg (show ¬ AgainstEnding _ _ _ _ from fun h => h.2.1 h3), if_neg (show ¬ Unclear _ _ _ _ from fun h => h.2.1 h3)]
          rcases h3 with h3 | h3
          · rw [if_pos (contains_iff.2 h3)]
            simp [Int.add_assoc]
          · by_cases h4 : f.1 ∈ S
            · rw [if_pos (contains_iff.2 h4)]
              simp [Int.add_assoc]
            · rw [if_neg (fun h => h4 (contains_iff.1 h)), if_pos (isNounVerb_iff.2 h3)]
              simp [Int.add_assoc]
        · rw [if_neg (show ¬ ForEnding _ _ _ _ from fun h => h3 h.2), if_neg (fun h => h3 (.inl (contains_iff.1 h))),
            if_neg (fun h => h3 (.inr (isNounVerb_iff.1 h)))]
          by_cases h5 : SurfaceAtEnd (· ∈ S) f.1
          · rw [if_pos (hasStem_iff.2 h5), if_neg (show ¬ AgainstEnding _ _ _ _ from fun h => h.2.2 h5), if_pos (show Unclear _ _ _ _ from ⟨hc, h3, h5⟩)]
            simp [Int.add_assoc]
          · rw [if_neg (fun h => h5 (hasStem_iff.1 h)), if_pos (show AgainstEnding _ _ _ _ from ⟨hc, h3, h5⟩), if_neg (show ¬ Unclear _ _ _ _ from fun h => h5 h.2.2)]
            simp [Int.add_assoc]

private theorem predictRow_spec (k : Int) (m : Rat) (r : Str) (col : List (Str × Int)) :
    EomiPrediction (· ∈ S) nouns k m r col (Eomi.predictRow S nouns k m r col) := by
  classical
  have ht : Eomi.tally S nouns r col = ⟨LR.wsum col (ForEnding (· ∈ S) nouns r), LR.wsum col (AgainstEnding (· ∈ S) nouns r),
      LR.wsum col (Unclear (· ∈ S) nouns r)⟩ := by
    unfold Eomi.tally; rw [tally_eq]; simp
  have hn : ∀ p : Str × Int → Bool, (∀ lc, p lc = true ↔ (lc.1 ∈ S ∧ ¬ LongerSurface (· ∈ S) lc.1 r)) →
      (col.filter p).length = (Eomi.refine S r col).length := by
    intro p hp
    unfold Eomi.refine
    congr 1
    apply List.filter_congr
    intro lc _
    rw [Bool.eq_iff_iff, hp, Bool.and_eq_true, contains_iff, Bool.not_eq_true', ← Bool.not_eq_true, existLonger_iff]
  unfold Eomi.predictRow
  dsimp only
  rw [ht]
  have hs : ∀ a b c : Int, Eomi.score ⟨a, b, c⟩ = if a + b = 0 then 0 else ((a - b : Int) : Rat) / ((a + b : Int) : Rat) := fun _ _ _ => rfl
  refine ⟨fun h => ?_, fun h => ?_, fun h => ?_⟩
  · rw [hn] at h
    · rw [if_neg (by omega)]
    · intro lc; exact @decide_eq_true_iff _ (_)
  · rw [hn] at h
    · rw [if_pos h]; dsimp only; rw [hs]
    · intro lc; exact @decide_eq_true_iff _ (_)
  · rw [hn] at h
    · rw [if_pos h]
      dsimp only
      by_cases hm : m ≤ Eomi.score ⟨LR.wsum col (ForEnding (· ∈ S) nouns r), LR.wsum col (AgainstEnding (· ∈ S) nouns r), LR.wsum col (Unclear (· ∈ S) nouns r)⟩
      · rw [if_pos hm, if_pos hm]
      · rw [if_neg hm, if_neg hm]
    · intro lc; exact @decide_eq_true_iff _ (_)

private theorem mem_candidates {g : LR.State} (hi : LR.Inv g) (surfaces : List Str) (condition : Str) :
    (Eomi.candidates g surfaces condition).WF ∧
    ∀ r, r ∈ Dict.keys (Eomi.candidates g surfaces condition) ↔ condition <:+ r ∧ ∃ l ∈ surfaces, (get2 g.lr l r).isSome = true := by
  have hw : ∀ r, Eomi.wanted condition r = true ↔ condition <:+ r := by
    intro r
    unfold Eomi.wanted
    rw [Bool.or_eq_true, decide_eq_true_iff, decide_eq_true_iff]
    constructor
    · rintro (rfl | h)
      · exact List.nil_suffix
      · rw [← h]; exact List.drop_suffix _ _
    · intro h
      exact .inr (List.suffix_iff_eq_drop.1 h).symm
  unfold Eomi.candidates
  suffices h : ∀ d : Dict Str Int, d.WF →
      Dict.WF (surfaces.foldl (fun d l => (LR.getR g l (-1)).foldl (fun d rc => if Eomi.wanted condition rc.1 then Dict.addI d rc.1 rc.2 else d) d) d) ∧
      ∀ r, r ∈ Dict.keys (surfaces.foldl (fun d l => (LR.getR g l (-1)).foldl (fun d rc => if Eomi.wanted condition rc.1 then Dict.addI d rc.1 rc.2 else d) d) d) ↔
        r ∈ Dict.keys d ∨ condition <:+ r ∧ ∃ l ∈ surfaces, (get2 g.lr l r).isSome = true by
    obtain ⟨h1, h2⟩ := h [] Dict.wf_nil
    exact ⟨h1, fun r => by rw [h2]; simp [Dict.keys]⟩
  induction surfaces with
  | nil => intro d hd; exact ⟨hd, by simp⟩
  | cons l ls ih =>
    intro d hd
    rw [List.foldl_cons]
    have row : ∀ (rs : List (Str × Int)) (d : Dict Str Int), d.WF →
        Dict.WF (rs.foldl (fun d rc => if Eomi.wanted condition rc.1 then Dict.addI d rc.1 rc.2 else d) d) ∧
        ∀ r, r ∈ Dict.keys (rs.foldl (fun d rc => if Eomi.wanted condition rc.1 then Dict.addI d rc.1 rc.2 else d) d) ↔
          r ∈ Dict.keys d ∨ condition <:+ r ∧ ∃ c, (r, c) ∈ rs := by
      intro rs
      induction rs with
      | nil => intro d hd; exact ⟨hd, by simp⟩
      | cons rc rs ih2 =>
        intro d hd
        rw [List.foldl_cons]
        by_cases hc : Eomi.wanted condition rc.1 = true
        · rw [if_pos hc]
          obtain ⟨h1, h2⟩ := ih2 _ (hd.addI rc.1 rc.2)
          refine ⟨h1, fun r => ?_⟩
          rw [h2]
          unfold Dict.addI
          rw [Dict.mem_keys_set]
          constructor
          · rintro ((rfl | h) | ⟨h, c, h'⟩)
            · exact .inr ⟨(hw _).1 hc, rc.2, by simp⟩
            · exact .inl h
            · exact .inr ⟨h, c, by simp [h']⟩
          · rintro (h | ⟨h, c, h'⟩)
            · exact .inl (.inr h)
            · rcases List.mem_cons.1 h' with rfl | h'
              · exact .inl (.inl rfl)
              · exact .inr ⟨h, c, h'⟩
        · rw [if_neg hc]
          obtain ⟨h1, h2⟩ := ih2 _ hd
          refine ⟨h1, fun r => ?_⟩
          rw [h2]
          constructor
          · rintro (h | ⟨h, c, h'⟩)
            · exact .inl h
            · exact .inr ⟨h, c, by simp [h']⟩
          · rintro (h | ⟨h, c, h'⟩)
            · exact .inl h
            · rcases List.mem_cons.1 h' with rfl | h'
              · exact absurd ((hw _).2 h) hc
              · exact .inr ⟨h, c, h'⟩
    obtain ⟨h1, h2⟩ := row (LR.getR g l (-1)) d hd
    obtain ⟨h3, h4⟩ := ih _ h1
    refine ⟨h3, fun r => ?_⟩
    rw [h4, h2]
    have hl : (∃ c, (r, c) ∈ LR.getR g l (-1)) ↔ (get2 g.lr l r).isSome = true := by
      rw [Option.isSome_iff_exists]
      exact exists_congr (fun c => LR.mem_getR_all hi)
    rw [hl]
    simp only [List.mem_cons, exists_eq_or_imp]
    constructor
    · rintro ((h | h) | h)
      · exact .inl h
      · exact .inr ⟨h.1, .inl h.2⟩
      · exact .inr ⟨h.1, .inr h.2⟩
    · rintro (h | ⟨h, h' | h'⟩)
      · exact .inl (.inl h)
      · exact .inl (.inr ⟨h, h'⟩)
      · exact .inr ⟨h, h'⟩
end

private theorem edge_iff {lMax rMax : Int} {c : Dict Str Int} (hw : c.WF) {g : LR.State} (hg : g.lr = LR.lrOfCounter lMax rMax c)
    (l r : Str) (n : Int) : get2 g.lr l r = some n ↔ EomiSplit lMax rMax c l r n := by
  rw [hg, LR.get2_lrOfCounter _ _ hw]
  unfold EomiSplit
  constructor
  · rintro ⟨⟨a, b, c⟩, d⟩; exact ⟨a, b, c, d⟩
  · rintro ⟨a, b, c, d⟩; exact ⟨⟨a, b, c⟩, d⟩

private theorem edge_some {lMax rMax : Int} {c : Dict Str Int} (hw : c.WF) {g : LR.State} (hg : g.lr = LR.lrOfCounter lMax rMax c)
    (l r : Str) : (get2 g.lr l r).isSome = true ↔ ∃ n, EomiSplit lMax rMax c l r n := by
  rw [Option.isSome_iff_exists]
  exact exists_congr (fun n => edge_iff hw hg l r n)

theorem table_ok {lMax rMax : Int} {c : Dict Str Int} (hw : c.WF) {g : LR.State} (hf : V2.Fresh c g) (hg : g.lr = LR.lrOfCounter lMax rMax c)
    {S : List Str} (nouns : List Str) (k : Int) (m : Rat) (condition : Str) (order : List Str) (ho : ∀ l, l ∈ order ↔ l ∈ S) :
    EomiTable lMax rMax c (· ∈ S) nouns k m condition
      (Eomi.batchPrediction S nouns k m g (Dict.keys (Eomi.candidates g order condition))).2 := by
  classical
  obtain ⟨hcw, hck⟩ := mem_candidates hf.cons.inv order condition
  obtain ⟨h1, h2, h3⟩ := Eomi.free_perm S nouns k m hf.cons _ hcw
  generalize (Eomi.batchPrediction S nouns k m g (Dict.keys (Eomi.candidates g order condition))).2 = d at *
  refine ⟨h1, ?_, ?_⟩
  · intro r
    rw [h2, hck]
    refine and_congr Iff.rfl ?_
    constructor
    · rintro ⟨l, hl, hs⟩
      obtain ⟨n, hn⟩ := (edge_some hw hg l r).1 hs
      exact ⟨l, n, (ho l).1 hl, hn⟩
    · rintro ⟨l, n, hl, hn⟩
      exact ⟨l, (ho l).2 hl, (edge_some hw hg l r).2 ⟨n, hn⟩⟩
  · intro r x hx
    have hm : r ∈ Dict.keys (Eomi.candidates g order condition) := by
      rw [← h2, ← Dict.isSome_get?_iff, hx]; rfl
    obtain ⟨col, hp, he⟩ := h3 r hm
    rw [hx] at he
    have hnd : (Eomi.freeCol S nouns m g d r).Nodup := (List.Nodup.of_map _ (LR.getL_all_nodup hf.cons.inv r)).filter _
    refine ⟨col, hp.nodup_iff.2 hnd, ?_, ?_⟩
    · intro l n
      rw [hp.mem_iff]
      unfold Eomi.freeCol
      rw [List.mem_filter, LR.mem_getL_all hf.cons.inv, edge_iff hw hg, decide_eq_true_iff, and_assoc]
      refine and_congr Iff.rfl (and_congr Iff.rfl (not_congr ?_))
      unfold Eomi.TakenBy EomiTaken
      constructor
      · rintro ⟨r', x', a1, a2, a3, l', a4, a5, a6⟩
        obtain ⟨n', hn'⟩ := (edge_some hw hg l' r').1 a6
        exact ⟨r', x', l', n', a1, a2, a3, a4, takes_iff.1 a5, hn'⟩
      · rintro ⟨r', x', l', n', a1, a2, a3, a4, a5, a6⟩
        exact ⟨r', x', a1, a2, a3, l', a4, takes_iff.2 a5, (edge_some hw hg l' r').2 ⟨n', a6⟩⟩
    · rw [Option.some.inj he]
      exact predictRow_spec k m r col

/-- a column's prediction depends on nothing else -/
private theorem prediction_unique {S : Str → Prop} {nouns : List Str} {k : Int} {m : Rat} {r : Str} {col col' : List (Str × Int)} {x x' : Int × Rat}
    (hp : col.Perm col') (h : EomiPrediction S nouns k m r col x) (h' : EomiPrediction S nouns k m r col' x') : x = x' := by
  classical
  have hs : ∀ P : Str → Prop, LR.wsum col P = LR.wsum col' P := by
    intro P
    unfold LR.wsum
    exact ((hp.filter _).map _).sum_eq
  have hl := (hp.filter (fun lc => decide (S lc.1 ∧ ¬ LongerSurface S lc.1 r))).length_eq
  obtain ⟨a1, a2, a3⟩ := h
  obtain ⟨b1, b2, b3⟩ := h'
  rw [hl] at a1 a2 a3
  by_cases hk : ((col'.filter (fun lc => decide (S lc.1 ∧ ¬ LongerSurface S lc.1 r))).length : Int) < k
  · rw [a1 hk, b1 hk]
  · have hk' : k ≤ ((col'.filter (fun lc => decide (S lc.1 ∧ ¬ LongerSurface S lc.1 r))).length : Int) := by omega
    have e2 : x.2 = x'.2 := by rw [a2 hk', b2 hk', hs, hs]
    have e1 : x.1 = x'.1 := by rw [a3 hk', b3 hk', e2, hs, hs, hs]
    exact Prod.ext e1 e2

/-- C59: the table of predictions is unique: the order in which the sets are enumerated does not matter, nor does anything but the
    counts of the eojeols, the surfaces and the nouns. -/
theorem C59_unique (lMax rMax : Int) (c : Dict Str Int) (S : Str → Prop) (nouns : List Str) (k : Int) (m : Rat) (condition : Str)
    (d d' : Dict Str (Int × Rat)) (h : EomiTable lMax rMax c S nouns k m condition d) (h' : EomiTable lMax rMax c S nouns k m condition d') : d.Perm d' := by
  apply Dict.perm_of_get? h.wf h'.wf
  have key : ∀ (n : Nat) (r : Str), rMax.toNat < r.length + n → Dict.get? d r = Dict.get? d' r := by
    intro n
    induction n with
    | zero =>
      intro r hr
      have hno : ∀ l n, ¬ EomiSplit lMax rMax c l r n := fun l n hs => by have := hs.2.2.1; omega
      have e1 : Dict.get? d r = none := by
        rw [Dict.get?_eq_none_iff, h.cands]; rintro ⟨_, l, n, _, hs⟩; exact hno l n hs
      have e2 : Dict.get? d' r = none := by
        rw [Dict.get?_eq_none_iff, h'.cands]; rintro ⟨_, l, n, _, hs⟩; exact hno l n hs
      rw [e1, e2]
    | succ n ih =>
      intro r hr
      have he : ∀ r', r.length < r'.length → Dict.get? d r' = Dict.get? d' r' := fun r' hl => ih r' (by omega)
      have hk : r ∈ Dict.keys d ↔ r ∈ Dict.keys d' := by rw [h.cands, h'.cands]
      cases hx : Dict.get? d r with
      | none =>
        rw [Dict.get?_eq_none_iff, hk, ← Dict.get?_eq_none_iff] at hx
        exact hx.symm
      | some x =>
        have : r ∈ Dict.keys d' := by rw [← hk, ← Dict.isSome_get?_iff, hx]; rfl
        obtain ⟨x', hx'⟩ := Option.isSome_iff_exists.1 ((Dict.isSome_get?_iff _ _).2 this)
        obtain ⟨col, hn, hm, hp⟩ := h.entry r x hx
        obtain ⟨col', hn', hm', hp'⟩ := h'.entry r x' hx'
        have hper : col.Perm col' := by
          rw [List.perm_ext_iff_of_nodup hn hn']
          rintro ⟨l, n⟩
          rw [hm, hm']
          have : EomiTaken lMax rMax c S nouns m d r (l ++ r) ↔ EomiTaken lMax rMax c S nouns m d' r (l ++ r) := by
            unfold EomiTaken
            constructor
            · rintro ⟨r', y, l', n', a1, a2, a3, a4⟩
              exact ⟨r', y, l', n', (he r' a3) ▸ a1, a2, a3, a4⟩
            · rintro ⟨r', y, l', n', a1, a2, a3, a4⟩
              exact ⟨r', y, l', n', (he r' a3).symm ▸ a1, a2, a3, a4⟩
          rw [this]
        rw [hx', prediction_unique hper hp hp']
  intro r
  exact key (rMax.toNat + 1) r (by omega)

/-- C59: `extract` with a graph made from the eojeol counts `c`. It raises exactly what the first stem that has no surfaces raises. Otherwise
    there is the (unique) table of predictions, and the endings returned are exactly those with a reading whose frequency is at least the
    minimum; the extractor keeps them, and the graph is given back as it was - whether or not the caller asked for it.
    The order in which sets are enumerated does not matter. -/
theorem C59_extract (s : Eomi.State) (lMax rMax : Int) (c : Dict Str Int) (hw : c.WF) (hf : V2.Fresh c s.lrgraph)
    (hg : s.lrgraph.lr = LR.lrOfCounter lMax rMax c) (enumS : List Str → List Str) (hS : ∀ l, (enumS l).Perm l)
    (enumL : List (Str × Str) → List (Str × Str)) (hL : ∀ l, (enumL l).Perm l) (condition : Str) (m : Rat) (minFreq : Int) (resetG : Bool) :
    (∀ e, Eomi.extract enumS enumL s condition m minFreq resetG = .error e ↔ ∃ a stem b, s.stems = a ++ stem :: b ∧ (∀ t ∈ a, ∃ o, conjugateStem t = .ok o) ∧
        conjugateStem stem = .error e) ∧
    (∀ s' out, Eomi.extract enumS enumL s condition m minFreq resetG = .ok (s', out) →
      ∃ d, EomiTable lMax rMax c (SurfaceOf s.stems) s.nouns s.minNumOfFeatures m condition d ∧ Dict.WF out ∧
        (∀ y x, Dict.get? out y = some x ↔ EomiEntry lMax rMax c s.stems m d y x ∧ minFreq ≤ x.1) ∧
        s' = { s with eomis := some out }) := by
  have hraise : ∀ (stems : List Str) e, Eomi.stemSurfaces stems = .error e ↔ ∃ a stem b, stems = a ++ stem :: b ∧ (∀ t ∈ a, ∃ o, conjugateStem t = .ok o) ∧
        conjugateStem stem = .error e := by
    intro stems
    induction stems with
    | nil => intro e; constructor
             · intro h; cases h
             · rintro ⟨a, stem, b, h, _⟩; simp at h
    | cons t ts ih =>
      intro e
      unfold Eomi.stemSurfaces
      cases ht : conjugateStem t with
      | error e' =>
        dsimp only
        constructor
        · intro h; cases h; exact ⟨[], t, ts, rfl, by simp, ht⟩
        · rintro ⟨a, stem, b, h1, h2, h3⟩
          cases a with
          | nil => cases h1; rw [ht] at h3; exact h3
          | cons u a =>
            obtain ⟨o, ho⟩ := h2 u (by simp)
            cases h1
            rw [ht] at ho; cases ho
      | ok o =>
        dsimp only
        constructor
        · intro h
          cases hts : Eomi.stemSurfaces ts with
          | ok _ => rw [hts] at h; cases h
          | error e' =>
            rw [hts] at h
            cases h
            obtain ⟨a, stem, b, h1, h2, h3⟩ := (ih e).1 hts
            refine ⟨t :: a, stem, b, by rw [h1]; rfl, ?_, h3⟩
            intro u hu
            rcases List.mem_cons.1 hu with rfl | hu
            · exact ⟨o, ht⟩
            · exact h2 u hu
        · rintro ⟨a, stem, b, h1, h2, h3⟩
          cases a with
          | nil => cases h1; rw [ht] at h3; cases h3
          | cons u a =>
            cases h1
            rw [(ih e).2 ⟨a, stem, b, rfl, fun v hv => h2 v (by simp [hv]), h3⟩]; rfl
  constructor
  · intro e
    rw [← hraise]
    unfold Eomi.extract
    cases h : Eomi.stemSurfaces s.stems with
    | error e' => constructor <;> (intro h'; cases h'; rfl)
    | ok S => constructor <;> (intro h'; cases h')
  · intro s' out h
    unfold Eomi.extract at h
    cases hs : Eomi.stemSurfaces s.stems with
    | error e => rw [hs] at h; cases h
    | ok S =>
      rw [hs] at h
      dsimp only at h
      have hSurf := mem_stemSurfaces hs
      have hfun : (fun l => l ∈ S) = SurfaceOf s.stems := funext (fun l => propext (hSurf l))
      have htab := table_ok hw hf hg s.nouns s.minNumOfFeatures m condition (enumS S.dedup) (S := S)
        (fun l => by rw [(hS _).mem_iff, List.mem_dedup])
      rw [hfun] at htab
      rw [Eomi.batch_reset S s.nouns s.minNumOfFeatures m hf] at h
      obtain ⟨d, hd⟩ : ∃ d, (Eomi.batchPrediction S s.nouns s.minNumOfFeatures m s.lrgraph (Dict.keys (Eomi.candidates s.lrgraph (enumS S.dedup) condition))).2 = d := ⟨_, rfl⟩
      rw [hd] at h htab
      have h' := Except.ok.inj h
      have e2 : Eomi.frequent minFreq m (Eomi.lemmatize enumL s.stems s.lrgraph (Eomi.accepted m d)) = out := congrArg Prod.snd h'
      have e1 := congrArg Prod.fst h'
      dsimp only at e1
      rw [e2] at e1
      have hpos : ∀ r, ∀ lc ∈ LR.getL s.lrgraph r (-1), 0 < lc.2 := by
        rintro r ⟨l, n⟩ hm
        exact (hf.cons.edge l r n ((LR.mem_getL_all hf.cons.inv).1 hm).2).2.1
      have haw : (Eomi.accepted m d).WF := htab.wf.filter _
      rw [Eomi.lemmatize_eq enumL s.stems s.lrgraph hpos] at e2
      have hmem := Eomi.mem_allReadings enumL hL s.stems hf.cons.inv haw
      have hnd := Eomi.nodup_allReadings enumL hL s.stems hf.cons.inv haw
      generalize hLs : Eomi.allReadings enumL s.stems s.lrgraph (Eomi.accepted m d) = L at *
      have hget : ∀ r f t, Dict.get? (Eomi.accepted m d) r = some (f, t) ↔ Dict.get? d r = some (f, t) ∧ m ≤ t := by
        intro r f t
        rw [← Dict.mem_iff_get? haw]
        unfold Eomi.accepted
        rw [List.mem_filter, Dict.mem_iff_get? htab.wf, decide_eq_true_iff]
      have hread : ∀ r l stem y n t, (((r, l), (stem, y)), n, t) ∈ L ↔ Reading lMax rMax c s.stems m d y r l stem n t := by
        intro r l stem y n t
        rw [hmem]
        unfold Reading
        constructor
        · rintro ⟨⟨f, a1⟩, a2, a3, a4, a5⟩
          obtain ⟨b1, b2⟩ := (hget r f t).1 a1
          exact ⟨⟨f, b1⟩, b2, a2, (edge_iff hw hg l r n).1 a3, a4, a5⟩
        · rintro ⟨⟨f, a1⟩, a2, a3, a4, a5, a6⟩
          exact ⟨⟨f, (hget r f t).2 ⟨a1, a2⟩⟩, a3, (edge_iff hw hg l r n).2 a4, a5, a6⟩
      have hLpos : ∀ u ∈ L, 0 < u.2.1 ∧ m ≤ u.2.2 := by
        rintro ⟨⟨⟨r, l⟩, stem, y⟩, n, t⟩ hu
        obtain ⟨_, b2, _, b3, _⟩ := (hread r l stem y n t).1 hu
        exact ⟨hf.pos _ (Dict.mem_of_get? b3.2.2.2), b2⟩
      obtain ⟨w1, w2, w3⟩ := Eomi.mstep_spec L (fun u hu => (hLpos u hu).1) [] Dict.wf_nil (by intro y x h; cases h)
      generalize hM : L.foldl Eomi.mstep [] = M at *
      refine ⟨d, htab, ?_, ?_, e1.symm⟩
      · rw [← e2]; exact w1.filter _
      · -- the entry of `y` in the merge
        have hentry : ∀ y x, Dict.get? M y = some x ↔ EomiEntry lMax rMax c s.stems m d y x := by
          intro y x
          obtain ⟨k1, k2, k3⟩ := w3 y
          have z1 : (Dict.getD ([] : Dict Str (Int × Rat)) y (0, 0)) = (0, 0) := rfl
          rw [z1] at k2 k3
          simp only [Int.zero_add, zero_mul, zero_add] at k2 k3
          obtain ⟨K, hK⟩ : ∃ K : List ((Str × Str × Str) × Int × Rat), K =
              (L.filter (fun u => decide (u.1.2.2 = y))).map (fun u => ((u.1.1.1, u.1.1.2, u.1.2.1), u.2.1, u.2.2)) := ⟨_, rfl⟩
          have hKn : K.Nodup := by
            rw [hK]
            refine (List.nodup_map_iff_inj_on (hnd.filter _)).2 ?_
            rintro ⟨⟨⟨r, l⟩, stem, y1⟩, n, t⟩ hu ⟨⟨⟨r', l'⟩, stem', y2⟩, n', t'⟩ hu' he
            have c1 := of_decide_eq_true (List.mem_filter.1 hu).2
            have c2 := of_decide_eq_true (List.mem_filter.1 hu').2
            dsimp only at c1 c2 he
            simp only [Prod.mk.injEq] at he ⊢
            obtain ⟨⟨a1, a2, a3⟩, a4, a5⟩ := he
            exact ⟨⟨⟨a1, a2⟩, a3, c1.trans c2.symm⟩, a4, a5⟩
          have hKm : ∀ r l stem n t, ((r, l, stem), n, t) ∈ K ↔ Reading lMax rMax c s.stems m d y r l stem n t := by
            intro r l stem n t
            rw [hK, ← hread]
            constructor
            · intro hu
              obtain ⟨⟨⟨⟨r', l'⟩, stem', y'⟩, n', t'⟩, hm, he⟩ := List.mem_map.1 hu
              obtain ⟨m1, m2⟩ := List.mem_filter.1 hm
              have c1 := of_decide_eq_true m2
              dsimp only at c1 he
              simp only [Prod.mk.injEq] at he
              obtain ⟨⟨a1, a2, a3⟩, a4, a5⟩ := he
              subst a1; subst a2; subst a3; subst a4; subst a5; subst c1
              exact m1
            · intro hu
              exact List.mem_map.2 ⟨_, List.mem_filter.2 ⟨hu, by simp⟩, rfl⟩
          have hs1 : (K.map (fun k => k.2.1)).sum = ((L.filter (fun u => decide (u.1.2.2 = y))).map (fun u => u.2.1)).sum := by
            rw [hK, List.map_map]; rfl
          have hs2 : (K.map (fun k => k.2.2 * (k.2.1 : Rat))).sum = ((L.filter (fun u => decide (u.1.2.2 = y))).map (fun u => u.2.2 * (u.2.1 : Rat))).sum := by
            rw [hK, List.map_map]; rfl
          have hKe : K ≠ [] ↔ y ∈ Dict.keys M := by
            rw [k1, hK]
            constructor
            · intro hne
              obtain ⟨u, hu⟩ := List.exists_mem_of_ne_nil _ hne
              obtain ⟨v, hv, _⟩ := List.mem_map.1 hu
              exact .inr ⟨v, (List.mem_filter.1 hv).1, of_decide_eq_true (List.mem_filter.1 hv).2⟩
            · rintro (hh | ⟨u, hu, he⟩) hnil
              · simp [Dict.keys] at hh
              · have := List.map_eq_nil_iff.1 hnil
                have hh : u ∈ L.filter (fun u => decide (u.1.2.2 = y)) := List.mem_filter.2 ⟨hu, decide_eq_true he⟩
                rw [this] at hh
                cases hh
          constructor
          · intro hx
            have hgd : Dict.getD M y (0, 0) = x := by show (Dict.get? M y).getD (0, 0) = x; rw [hx]; rfl
            rw [hgd] at k2 k3
            exact ⟨K, hKn, hKm, hKe.2 (by rw [← Dict.isSome_get?_iff, hx]; rfl), by rw [hs1]; exact k2, by rw [hs2]; exact k3⟩
          · rintro ⟨K', hn', hm', hne', hf', hs'⟩
            have hper : K'.Perm K := by
              rw [List.perm_ext_iff_of_nodup hn' hKn]
              rintro ⟨⟨r, l, stem⟩, n, t⟩
              rw [hm', hKm]
            have hne : K ≠ [] := by
              intro h0
              rw [h0] at hper
              exact hne' hper.eq_nil
            obtain ⟨x', hx'⟩ := Option.isSome_iff_exists.1 ((Dict.isSome_get?_iff _ _).2 (hKe.1 hne))
            have hgd : Dict.getD M y (0, 0) = x' := by show (Dict.get? M y).getD (0, 0) = x'; rw [hx']; rfl
            rw [hgd] at k2 k3
            rw [(hper.map _).sum_eq, hs1, ← k2] at hf'
            rw [(hper.map _).sum_eq, hs2, ← k3, hf'] at hs'
            have hp0 := w2 y x' hx'
            have : x.2 = x'.2 := mul_right_cancel₀ (by rw [Ne, Int.cast_eq_zero]; omega) hs'
            rw [hx', Prod.ext hf' this]
        intro y x
        rw [← e2, ← hentry]
        unfold Eomi.frequent
        rw [← Dict.mem_iff_get? (w1.filter _), List.mem_filter, Dict.mem_iff_get? w1, Bool.and_eq_true, decide_eq_true_iff, decide_eq_true_iff]
        constructor
        · rintro ⟨a1, a2, _⟩; exact ⟨a1, a2⟩
        · rintro ⟨a1, a2⟩
          refine ⟨a1, a2, ?_⟩
          -- the mean of scores that are all at least `m`
          obtain ⟨K, hn, hm, hne, hfq, hsc⟩ := (hentry y x).1 a1
          have hp0 := w2 y x a1
          have hle : ∀ K : List ((Str × Str × Str) × Int × Rat), (∀ u ∈ K, 0 < u.2.1 ∧ m ≤ u.2.2) →
              m * (((K.map (fun k => k.2.1)).sum : Int) : Rat) ≤ (K.map (fun k => k.2.2 * (k.2.1 : Rat))).sum := by
            intro K hK
            induction K with
            | nil => simp
            | cons u K ih =>
              have i1 := ih (fun v hv => hK v (by simp [hv]))
              obtain ⟨i2, i3⟩ := hK u (by simp)
              simp only [List.map_cons, List.sum_cons, Int.cast_add, mul_add]
              have : m * ((u.2.1 : Int) : Rat) ≤ u.2.2 * ((u.2.1 : Int) : Rat) := by
                apply mul_le_mul_of_nonneg_right i3
                exact_mod_cast Int.le_of_lt i2
              linarith
          have := hle K (by
            rintro ⟨⟨r, l, stem⟩, n, t⟩ hu
            have := (hread r l stem y n t).2 ((hm r l stem n t).1 hu)
            exact hLpos _ this)
          rw [← hfq, ← hsc] at this
          have hp1 : (0 : Rat) < (x.1 : Rat) := by exact_mod_cast hp0
          exact le_of_mul_le_mul_right this hp1

/-- C59, every ending returned is one: it was read off an eojeol that is counted, which is a form of a known stem with it. -/
theorem C59_sound (lMax rMax : Int) (c : Dict Str Int) (stems : List Str) (m : Rat) (d : Dict Str (Int × Rat)) (y : Str) (x : Int × Rat)
    (h : EomiEntry lMax rMax c stems m d y x) :
    y ≠ [] ∧ ∃ e n stem forms, Dict.get? c e = some n ∧ stem ∈ stems ∧ conjugate stem y = .ok forms ∧ e ∈ forms := by
  obtain ⟨K, _, hm, hne, _⟩ := h
  obtain ⟨⟨⟨r, l, stem⟩, n, t⟩, hu⟩ := List.exists_mem_of_ne_nil _ hne
  obtain ⟨_, _, _, h4, h5, cs, h6, h7⟩ := (hm r l stem n t).1 hu
  obtain ⟨h8, forms, h9, h10⟩ := lemmaCandidate_sound h6 _ h7
  exact ⟨h8, l ++ r, n, stem, forms, h4.2.2.2, h5, h9, h10⟩

/-- C59: outside `extract`, `predict` raises for every right part that has any left part at all. -/
theorem C59_predict_unusable (s : Eomi.State) (hi : LR.Inv s.lrgraph) (r : Str) (hr : r ≠ []) (l : Str) (n : Int) (h : get2 s.lrgraph.lr l r = some n) (m : Rat) (k : Int) :
    Eomi.predict s r m k = .error .attributeError := by
  unfold Eomi.predict
  rw [if_neg]
  intro hn
  have := (LR.mem_getL_all hi).2 ⟨hr, h⟩
  rw [hn] at this; cases this

/-- the hypotheses on the graph are met by every graph made from an eojeol counter -/
theorem eomi_graph_ok {ec : EC.State} (hw : ec.counter.WF) (hp : ∀ kv ∈ ec.counter, 0 < kv.2) {lMax rMax : Int} {i : Bool} {g : LR.State}
    (h : LR.toLrgraph ec lMax rMax i = .ok g) : V2.Fresh ec.counter g ∧ g.lr = LR.lrOfCounter lMax rMax ec.counter := by
  unfold LR.toLrgraph at h
  obtain ⟨h1, h2, h3, _, _, h6⟩ := LR.construct_inv (LR.wf2_lrOfCounter lMax rMax ec.counter) h
  rw [if_pos rfl] at h6
  exact ⟨V2.fresh_of_counter hw hp h1 h6 h2 h3, h6⟩

def eomiCounter : Dict Str Int := [("먹는다".toList, 3), ("잡는다".toList, 2), ("집는다".toList, 1), ("먹었다".toList, 4), ("갔다".toList, 2), ("잡았다".toList, 2), ("먹는".toList, 5)]
def eomiRun (k m : Nat) : Option (List (Str × Int × Rat)) :=
  match LR.construct (LR.lrOfCounter 10 9 eomiCounter) with
  | .ok g => match Eomi.extract id id ⟨g, ["먹".toList, "잡".toList, "가".toList], [], k, none⟩ [] (3/10) m with
    | .ok p => some (p.2 : List (Str × Int × Rat))
    | .error _ => none
  | .error _ => none
def eomiErr (stem : Str) : Option PyErr :=
  match LR.construct (LR.lrOfCounter 10 9 eomiCounter) with
  | .ok g => match Eomi.extract id id ⟨g, ["먹".toList, stem], [], 2, none⟩ with
    | .ok _ => none
    | .error e => some e
  | .error _ => none

/-- 는다 needs two different surfaces: 3 + 2 for, 1 against -/
example : eomiRun 2 1 = some [("는다".toList, 5, 2/3)] := by decide +kernel
/-- with one surface enough: 다 of 갔다 is read as ㅆ다 after 가; its support excludes the eojeols the longer candidates took; 았다 is accepted but dropped,
    because 잡 + 았다 conjugates to 자왔다 only -/
example : eomiRun 1 1 = some [("었다".toList, 4, 1), ("는다".toList, 5, 2/3), ("는".toList, 5, 1), ("ㅆ다".toList, 2, 1/3)] := by decide +kernel
example : eomiRun 1 5 = some [("는다".toList, 5, 2/3), ("는".toList, 5, 1)] := by decide +kernel
/-- one stem that is not Korean makes the whole extraction fail -/
example : eomiErr "a".toList = some .typeError := by decide +kernel
example : eomiErr [] = some .indexError := by decide +kernel
end Props
