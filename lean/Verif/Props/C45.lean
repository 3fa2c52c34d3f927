import Verif.Proofs.NounV1
import Mathlib.Algebra.Order.Field.Rat
import Mathlib.Analysis.SpecialFunctions.Pow.Real
import Mathlib.Tactic.Linarith
/-! C45: `LRNounExtractor` (v1): extraction never fails, gives every eojeol to at most one noun (the longest), leaves the
graph as it was, and applies the stated filters. -/
namespace Props
open Py Nested V1

/-- the sentence as seen by the extractor -/
def v1Norm (p : V1.Params) (sent : Str) : Str := if p.ensureNormalized then sent else Normalizer.normalizeSentForLrgraph sent
/-- the eojeols of the corpus -/
def v1Tokens (p : V1.Params) (sents : List Str) : List Str := sents.flatMap (fun s => splitWs (v1Norm p s))
/-- the pieces between blanks, from which substring frequencies are counted -/
def v1Blanks (p : V1.Params) (sents : List Str) : List Str := sents.flatMap (fun s => (splitOn ' ' (v1Norm p s)).filter (fun t => t ≠ []))

/-- how many strings start with `w` -/
def startCount (ts : List Str) (w : Str) : Nat := ts.countP (fun t => w.isPrefixOf t)
/-- how many strings end with `r` and are longer than `r` -/
def endCount (ts : List Str) (r : Str) : Nat := ts.countP (fun t => decide (r.length < t.length) && r.isSuffixOf t)

/-- `w` is short enough and frequent enough to be a left part -/
def LeftPart (p : V1.Params) (m : Int) (ts : List Str) (w : Str) : Prop :=
  w ≠ [] ∧ (w.length : Int) ≤ p.maxLeft ∧ 0 < startCount ts w ∧ m ≤ (startCount ts w : Int)
/-- `r` is empty, or short enough (strictly below `max_right_length`) and frequent enough to be a right part -/
def RightPart (p : V1.Params) (m : Int) (ts : List Str) (r : Str) : Prop :=
  r = [] ∨ (r.length : Int) < p.maxRight ∧ 0 < endCount ts r ∧ m ≤ (endCount ts r : Int)
/-- the eojeol `e` splits after `w` into known parts -/
def SplitsAfter (p : V1.Params) (m : Int) (sents : List Str) (w e : Str) : Prop :=
  ∃ r, w ++ r = e ∧ LeftPart p m (v1Blanks p sents) w ∧ RightPart p m (v1Blanks p sents) r

private theorem scan_eq (p : V1.Params) (sents : List Str) : scanTokens p sents = v1Blanks p sents := by
  unfold scanTokens v1Blanks prep v1Norm
  cases p.ensureNormalized <;> rfl
theorem v1_graph_eq (p : V1.Params) (sents : List Str) : graphTokens p sents = v1Tokens p sents := by
  unfold graphTokens v1Tokens prep v1Norm
  cases p.ensureNormalized <;> rfl

private theorem left_count (p : V1.Params) (ts : List Str) (w : Str) (h : w ≠ [] ∧ (w.length : Int) ≤ p.maxLeft) :
    ts.countP (fun t => IsLeft p t w) = startCount ts w := by
  unfold startCount IsLeft
  congr 1
  funext t
  simp [h]

private theorem left_count_zero (p : V1.Params) (ts : List Str) (w : Str) (h : ¬ (w ≠ [] ∧ (w.length : Int) ≤ p.maxLeft)) :
    ts.countP (fun t => IsLeft p t w) = 0 := by
  rw [List.countP_eq_zero]
  intro t _
  unfold IsLeft
  rw [decide_eq_false h]; simp

private theorem right_count (p : V1.Params) (ts : List Str) (r : Str) (h : r ≠ [] ∧ (r.length : Int) < p.maxRight) :
    ts.countP (fun t => IsRight p t r) = endCount ts r := by
  unfold endCount IsRight
  congr 1
  funext t
  simp [h]

private theorem right_count_zero (p : V1.Params) (ts : List Str) (r : Str) (h : ¬ (r ≠ [] ∧ (r.length : Int) < p.maxRight)) :
    ts.countP (fun t => IsRight p t r) = 0 := by
  rw [List.countP_eq_zero]
  intro t _
  unfold IsRight
  have : ¬ (r ≠ [] ∧ (r.length : Int) < p.maxRight ∧ r.length < t.length) := fun hh => h ⟨hh.1, hh.2.1⟩
  rw [decide_eq_false this]; simp

theorem v1_mem_left (p : V1.Params) (sents : List Str) (m : Int) (w : Str) :
    w ∈ Dict.keys (scanVocabulary p sents m).1 ↔ LeftPart p m (v1Blanks p sents) w := by
  rw [mem_keys_scan, scan_eq]
  unfold LeftPart
  by_cases h : w ≠ [] ∧ (w.length : Int) ≤ p.maxLeft
  · rw [left_count p _ w h]
    constructor
    · rintro ⟨a, b⟩; exact ⟨h.1, h.2, a, b⟩
    · rintro ⟨_, _, a, b⟩; exact ⟨a, b⟩
  · rw [left_count_zero p _ w h]
    constructor
    · rintro ⟨a, _⟩; exact absurd a (Nat.lt_irrefl _)
    · rintro ⟨a, b, _⟩; exact absurd ⟨a, b⟩ h

theorem v1_mem_right (p : V1.Params) (sents : List Str) (m : Int) (r : Str) :
    (r = [] ∨ r ∈ (scanVocabulary p sents m).2) ↔ RightPart p m (v1Blanks p sents) r := by
  rw [mem_scan_right, scan_eq]
  unfold RightPart
  by_cases hr : r = []
  · simp [hr]
  · by_cases h : r ≠ [] ∧ (r.length : Int) < p.maxRight
    · rw [right_count p _ r h]
      simp only [hr, false_or, h.2, true_and]
    · rw [right_count_zero p _ r h]
      have : ¬ (r.length : Int) < p.maxRight := fun hh => h ⟨hr, hh⟩
      simp only [hr, false_or, this, false_and, Nat.lt_irrefl]

private theorem hasEdge_iff {p : V1.Params} {sents : List Str} {m : Int} {g : LR.State}
    (hg : g.lr = buildLrgraph p sents (Dict.keys (scanVocabulary p sents m).1) (scanVocabulary p sents m).2) (w e : Str)
    (he : e ∈ v1Tokens p sents) : HasEdge g w e ↔ SplitsAfter p m sents w e := by
  unfold HasEdge SplitsAfter
  constructor
  · rintro ⟨r, hs, rfl⟩
    obtain ⟨c, hc⟩ := Option.isSome_iff_exists.1 hs
    rw [hg, get2_build] at hc
    obtain ⟨⟨_, _, h1, h2⟩, _⟩ := hc
    exact ⟨r, rfl, (v1_mem_left p sents m w).1 h1, (v1_mem_right p sents m r).1 h2⟩
  · rintro ⟨r, rfl, h1, h2⟩
    refine ⟨r, ?_, rfl⟩
    have : get2 g.lr w r = some ((graphTokens p sents).countP (fun t => decide (t = w ++ r)) : Int) := by
      rw [hg, get2_build, v1_graph_eq]
      exact ⟨⟨h1.1, h1.2.1, (v1_mem_left p sents m w).2 h1, (v1_mem_right p sents m r).2 h2⟩, he, rfl⟩
    rw [this]; rfl

/-- the candidates: the given ones, or the counted words -/
def v1Candidates (p : V1.Params) (m : Int) (sents candidates : List Str) (w : Str) : Prop :=
  if candidates = [] then LeftPart p m (v1Blanks p sents) w else w ∈ candidates

/-- C45: training fails only on an empty corpus. -/
theorem C45_train (p : V1.Params) (s : V1.State) (sents : List Str) (m : Int) :
    (∃ s', V1.train p s sents m = .ok s') ↔ sents ≠ [] := by
  constructor
  · rintro ⟨s', h⟩; exact (train_ok h).choose_spec.2.2.2.2.2.2.2
  · exact train_total p s sents m

open Classical in
/-- C45: after training, `extract` raises nothing and leaves the extractor as it was; the frequency of every extracted
    noun is the number of eojeols of the corpus for which it is the longest extracted noun they split after; so the
    frequencies add up to at most the number of eojeols. Any candidates, any threshold, any set enumeration order. -/
theorem C45_frequency (p : V1.Params) (s s' : V1.State) (sents : List Str) (m : Int) (h : V1.train p s sents m = .ok s')
    (ord : List Str) (hord : ord.Perm (Dict.keys s'.substringCounter)) (minScore : Rat) (candidates : List Str) :
    ∃ res, V1.extract p s' ord minScore candidates = .ok (s', res) ∧ (res.map (·.1)).Nodup ∧
      (∀ w ns, (w, ns) ∈ res → ns.frequency = (((v1Tokens p sents).filter (fun e => decide (SplitsAfter p m sents w e ∧
        ∀ w' ∈ res.map (·.1), SplitsAfter p m sents w' e → w'.length ≤ w.length))).length : Int)) ∧
      (res.map (fun e => e.2.frequency)).sum ≤ ((v1Tokens p sents).length : Int) := by
  obtain ⟨g, h1, hi, ho, hrl, hlr, _, _, _⟩ := train_ok h
  have hcons := train_cons hi hlr
  rw [v1_graph_eq] at hcons
  obtain ⟨nouns, e1, hw, _⟩ := predictAll_spec (p := p) h1 minScore (sorted shorterLe (if candidates = [] then ord else candidates)) [] Dict.wf_nil
  generalize hpost : postprocess s' nouns minScore = post
  have hpw : Dict.WF post := by rw [← hpost]; exact hw.filter _
  refine ⟨(toNounScore g post).2, ?_, ?_, ?_, ?_⟩
  · unfold V1.extract
    rw [h1]
    dsimp only
    rw [e1]
    dsimp only
    rw [hpost]
    have : (toNounScore g post).1 = g := by
      unfold toNounScore
      dsimp only
      rw [claim_eq]
      dsimp only
      rw [reset_claimAll _ hcons ho hrl]
    rw [this]
    cases s'; dsimp only at h1; subst h1; rfl
  · have : (toNounScore g post).2.map (·.1) = Dict.keys post := by
      unfold toNounScore; dsimp only; rw [List.map_map]; rfl
    rw [this]; exact hpw
  · have hkeys : (toNounScore g post).2.map (·.1) = Dict.keys post := by
      unfold toNounScore; dsimp only; rw [List.map_map]; rfl
    rw [hkeys]
    intro w ns hm
    have hm' : (w, ns) ∈ post.map (fun e => (e.1, (⟨Dict.getD (claim g [] (sorted longerLe (Dict.keys post))).2 e.1 0, e.2.1, e.2.2⟩ : V1.NounScore))) := hm
    obtain ⟨⟨w0, x⟩, hx, e⟩ := List.mem_map.1 hm'
    have ew : w0 = w := congrArg Prod.fst e
    subst ew
    have en := congrArg (fun z : Str × V1.NounScore => z.2.frequency) e
    dsimp only at en
    have hk : w0 ∈ Dict.keys post := List.mem_map.2 ⟨_, hx, rfl⟩
    have hf := claim_freq hcons (Dict.keys post) hpw w0 hk
    rw [← en]
    show (Dict.get? _ _).getD 0 = _
    rw [hf, Option.getD_some, wsum_tokens]
    congr 2
    apply List.filter_congr
    intro t ht
    have a1 : ∀ w', HasEdge g w' t ↔ SplitsAfter p m sents w' t := fun w' => hasEdge_iff hlr w' t ht
    exact decide_eq_decide.2 (by simp only [a1])
  · have hfr : (toNounScore g post).2.map (fun e => e.2.frequency) =
        (Dict.keys post).map (fun w => Dict.getD (claim g [] (sorted longerLe (Dict.keys post))).2 w 0) := by
      unfold toNounScore; dsimp only; rw [List.map_map, List.map_map]; rfl
    rw [hfr]
    have hfr2 : (Dict.keys post).map (fun w => Dict.getD (claim g [] (sorted longerLe (Dict.keys post))).2 w 0) =
        (Dict.keys post).map (fun w => LR.wsum ((v1Tokens p sents).map (fun t => (t, (1 : Int))))
          (fun e => HasEdge g w e ∧ ∀ w' ∈ Dict.keys post, HasEdge g w' e → w'.length ≤ w.length)) := by
      apply List.map_congr_left
      intro w hk
      have hf := claim_freq hcons (Dict.keys post) hpw w hk
      show (Dict.get? _ _).getD 0 = _
      rw [hf]; rfl
    rw [hfr2, LR.sum_wsum_disjoint _ hpw (fun w e => HasEdge g w e ∧ ∀ w' ∈ Dict.keys post, HasEdge g w' e → w'.length ≤ w.length)]
    · refine Int.le_trans (LR.wsum_le_total ?_ _) ?_
      · intro e he
        obtain ⟨t, _, rfl⟩ := List.mem_map.1 he
        exact Int.zero_le_ofNat 1
      · rw [List.map_map]
        have : ((fun x : Str × Int => x.2) ∘ fun t : Str => (t, (1 : Int))) = fun _ => 1 := rfl
        rw [this]
        have : ∀ l : List Str, (l.map (fun _ => (1 : Int))).sum = (l.length : Int) := by
          intro l; induction l with
          | nil => rfl
          | cons a l ih => rw [List.map_cons, List.sum_cons, ih]; simp; omega
        rw [this]
    · rintro w hw w' hw' e ⟨⟨r, _, e1⟩, h2⟩ ⟨⟨r', _, e2⟩, h3⟩
      have a := h2 w' hw' ⟨r', by assumption, e2⟩
      have b := h3 w hw ⟨r, by assumption, e1⟩
      exact (List.append_inj (e1.trans e2.symm) (by omega)).1

/-! ### what is extracted -/

/-- the frequency kept for a left part (0 for strings that are not left parts) -/
noncomputable def keptCount (p : V1.Params) (m : Int) (sents : List Str) (w : Str) : Nat :=
  open Classical in if LeftPart p m (v1Blanks p sents) w then startCount (v1Blanks p sents) w else 0

/-- `(count(w) / count(w[0])) ^ (1 / (n-1))`, 0 when the first character was not kept -/
noncomputable def cohesionOf (p : V1.Params) (m : Int) (sents : List Str) (w : Str) : ℝ :=
  if keptCount p m sents (w.take 1) = 0 ∨ w.length ≤ 1 then 0
  else ((keptCount p m sents w : ℝ) / (keptCount p m sents (w.take 1) : ℝ)) ^ ((1 : ℝ) / ((w.length : ℝ) - 1))

private theorem root_le {a b : ℝ} (ha : 0 ≤ a) (hb : 0 ≤ b) {n : Nat} (hn : 3 ≤ n) :
    b ^ ((1 : ℝ) / ((n : ℝ) - 2)) ≤ a ^ ((1 : ℝ) / ((n : ℝ) - 1)) ↔ b ^ (n - 1) ≤ a ^ (n - 2) := by
  have hr : (3 : ℝ) ≤ (n : ℝ) := by exact_mod_cast hn
  have hx : 0 ≤ a ^ ((1 : ℝ) / ((n : ℝ) - 1)) := Real.rpow_nonneg ha _
  have hy : 0 ≤ b ^ ((1 : ℝ) / ((n : ℝ) - 2)) := Real.rpow_nonneg hb _
  have hk : (n - 1) * (n - 2) ≠ 0 := Nat.mul_ne_zero (by omega) (by omega)
  have e1 : (a ^ ((1 : ℝ) / ((n : ℝ) - 1))) ^ ((n - 1) * (n - 2)) = a ^ (n - 2) := by
    rw [pow_mul]
    congr 1
    rw [← Real.rpow_natCast, ← Real.rpow_mul ha, Nat.cast_sub (by omega), Nat.cast_one, one_div, inv_mul_cancel₀ (by linarith), Real.rpow_one]
  have e2 : (b ^ ((1 : ℝ) / ((n : ℝ) - 2))) ^ ((n - 1) * (n - 2)) = b ^ (n - 1) := by
    rw [Nat.mul_comm, pow_mul]
    congr 1
    rw [← Real.rpow_natCast, ← Real.rpow_mul hb, Nat.cast_sub (by omega), Nat.cast_ofNat, one_div, inv_mul_cancel₀ (by linarith), Real.rpow_one]
  rw [← pow_le_pow_iff_left₀ hy hx hk, e1, e2]

theorem v1_getD_kept {p : V1.Params} {m : Int} {sents : List Str} (w : Str) :
    Dict.getD (scanVocabulary p sents m).1 w 0 = keptCount p m sents w := by
  unfold keptCount
  have hk := v1_mem_left p sents m w
  rw [← Dict.isSome_get?_iff] at hk
  by_cases h : LeftPart p m (v1Blanks p sents) w
  · rw [if_pos h]
    have := get?_scan p sents m w
    dsimp only at this
    rw [scan_eq, left_count p _ w ⟨h.1, h.2.1⟩, if_pos ⟨h.2.2.1, h.2.2.2⟩] at this
    show (Dict.get? _ _).getD 0 = _
    rw [this]; rfl
  · rw [if_neg h]
    have : Dict.get? (scanVocabulary p sents m).1 w = none := by
      cases hg : Dict.get? (scanVocabulary p sents m).1 w with
      | none => rfl
      | some v => rw [hg] at hk; exact absurd (hk.1 rfl) h
    show (Dict.get? _ _).getD 0 = _
    rw [this]; rfl

theorem v1_cohesion (p : V1.Params) (sents : List Str) (m : Int) (w : Str) (hw : 3 ≤ w.length) :
    longerHasLargerCohesion (scanVocabulary p sents m).1 w = true ↔ cohesionOf p m sents w.dropLast ≤ cohesionOf p m sents w := by
  have htake : w.dropLast.take 1 = w.take 1 := by
    rw [List.dropLast_eq_take, List.take_take]; congr 1; omega
  have hdl : w.dropLast.length = w.length - 1 := List.length_dropLast
  unfold longerHasLargerCohesion cohesionBase cohesionOf
  rw [htake, hdl, decide_eq_true_eq, v1_getD_kept, v1_getD_kept, v1_getD_kept]
  by_cases h0 : keptCount p m sents (w.take 1) = 0
  · simp only [h0, true_or, if_true]
    constructor
    · intro _; exact le_refl _
    · intro _
      rw [ge_iff_le, zero_pow (by omega), zero_pow (by omega)]
  · have hn1 : ¬ (keptCount p m sents (w.take 1) = 0 ∨ w.length ≤ 1) := by rintro (h | h); exact h0 h; omega
    have hn2 : ¬ (keptCount p m sents (w.take 1) = 0 ∨ w.length - 1 ≤ 1) := by rintro (h | h); exact h0 h; omega
    rw [if_neg hn1, if_neg hn2, if_neg hn1, if_neg hn2]
    have hcast : ((w.length - 1 : Nat) : ℝ) - 1 = (w.length : ℝ) - 2 := by
      rw [Nat.cast_sub (by omega), Nat.cast_one]; ring
    rw [hcast, root_le (by positivity) (by positivity) hw, ge_iff_le]
    have e : ∀ (a b : Nat) (k : Nat), ((((a : Rat) / (b : Rat)) ^ k : Rat) : ℝ) = ((a : ℝ) / (b : ℝ)) ^ k := by
      intro a b k; push_cast; rfl
    rw [← e, ← e]
    exact_mod_cast Iff.rfl

/-- C45: the exact comparison used by the model is the comparison of the two real roots. -/
theorem C45_cohesion_exact (p : V1.Params) (s s' : V1.State) (sents : List Str) (m : Int) (h : V1.train p s sents m = .ok s')
    (w : Str) (hw : 3 ≤ w.length) :
    longerHasLargerCohesion s'.substringCounter w = true ↔ cohesionOf p m sents w.dropLast ≤ cohesionOf p m sents w := by
  obtain ⟨g, _, _, _, _, _, _, hsc, _⟩ := train_ok h
  rw [hsc]
  exact v1_cohesion p sents m w hw

/-- the words that pass the score threshold -/
def Scored (p : V1.Params) (s' : V1.State) (m : Int) (sents candidates : List Str) (minScore : Rat) (w : Str) (x : Rat × Rat) : Prop :=
  v1Candidates p m sents candidates w ∧ 2 ≤ w.length ∧ V1.predict p s' w = .ok x ∧ minScore ≤ x.1

/-- the reasons for which a scored word is dropped, given the cohesion scores -/
def DroppedBy (cohesion : Str → ℝ) (p : V1.Params) (s' : V1.State) (m : Int) (sents candidates : List Str) (minScore : Rat) (w : Str) : Prop :=
  w.getLast? = some '.' ∨ w.getLast? = some ',' ∨
  (3 ≤ w.length ∧ cohesion w < cohesion w.dropLast ∧
    ∃ l r, w = l ++ r ∧ 2 ≤ l.length ∧ r ≠ [] ∧ (∃ y, Scored p s' m sents candidates minScore l y) ∧
      minScore < (Dict.get? s'.coefficient r).getD 0)

/-- the reasons for which a scored word is dropped after training: the cohesion scores are those of the same corpus -/
def Dropped (p : V1.Params) (s' : V1.State) (m : Int) (sents candidates : List Str) (minScore : Rat) (w : Str) : Prop :=
  DroppedBy (cohesionOf p m sents) p s' m sents candidates minScore w

theorem v1_predict_default {p : V1.Params} {s : V1.State} {g : LR.State} (h : s.lrgraph = some g) (w : Str) :
    V1.predict p s w = .ok (V1.score p s.coefficient g w) := by
  unfold V1.predict V1.score
  rw [h]
  dsimp only
  split
  · rfl
  · exact subwordScore_nil _ _ _

theorem v1_extract_total {p : V1.Params} {s' : V1.State} {g : LR.State} (h1 : s'.lrgraph = some g) (ord : List Str) (minScore : Rat) (candidates : List Str) :
    ∃ s2 res, V1.extract p s' ord minScore candidates = .ok (s2, res) := by
  obtain ⟨nouns, e1, _, _⟩ := predictAll_spec (p := p) h1 minScore (sorted shorterLe (if candidates = [] then ord else candidates)) [] Dict.wf_nil
  unfold V1.extract
  rw [h1]
  dsimp only
  rw [e1]
  exact ⟨_, _, rfl⟩

theorem v1_extracted (p : V1.Params) (s' s2 : V1.State) (sents : List Str) (m : Int) (g : LR.State) (h1 : s'.lrgraph = some g)
    (cohesion : Str → ℝ) (hcoh : ∀ w, 3 ≤ w.length → (longerHasLargerCohesion s'.substringCounter w = true ↔ cohesion w.dropLast ≤ cohesion w))
    (ord : List Str) (hord : ∀ w, w ∈ ord ↔ LeftPart p m (v1Blanks p sents) w) (minScore : Rat) (candidates : List Str)
    (res : Dict Str V1.NounScore) (hres : V1.extract p s' ord minScore candidates = .ok (s2, res)) (w : Str) :
    (∀ ns, (w, ns) ∈ res → ∃ x, Scored p s' m sents candidates minScore w x ∧ ns.score = x.1 ∧ ns.knownRRatio = x.2) ∧
    (w ∈ res.map (·.1) ↔ (∃ x, Scored p s' m sents candidates minScore w x) ∧ ¬ DroppedBy cohesion p s' m sents candidates minScore w) := by
  obtain ⟨nouns, e1, hw, hspec⟩ := predictAll_spec (p := p) h1 minScore (sorted shorterLe (if candidates = [] then ord else candidates)) [] Dict.wf_nil
  have hcand : ∀ w, w ∈ sorted shorterLe (if candidates = [] then ord else candidates) ↔ v1Candidates p m sents candidates w := by
    intro w
    rw [mem_sorted]
    unfold v1Candidates
    by_cases hc : candidates = []
    · rw [if_pos hc, if_pos hc, hord]
    · rw [if_neg hc, if_neg hc]
  have hscored : ∀ w x, Dict.get? nouns w = some x ↔ Scored p s' m sents candidates minScore w x := by
    intro w x
    rw [hspec, hcand, Scored, v1_predict_default h1]
    simp only [Dict.get?_nil]
    constructor
    · rintro (⟨a, b, c, rfl⟩ | ⟨_, hh⟩)
      · exact ⟨a, b, rfl, c⟩
      · cases hh
    · rintro ⟨a, b, c, d⟩
      have := Except.ok.inj c
      subst this
      exact Or.inl ⟨a, b, d, rfl⟩
  have hres' : res = (toNounScore g (postprocess s' nouns minScore)).2 := by
    unfold V1.extract at hres
    rw [h1] at hres
    dsimp only at hres
    rw [e1] at hres
    exact (congrArg Prod.snd (Except.ok.inj hres)).symm
  have hkeys : res.map (·.1) = Dict.keys (postprocess s' nouns minScore) := by
    rw [hres']; unfold toNounScore; dsimp only; rw [List.map_map]; rfl
  have hdrop : ∀ w, (∃ x, Scored p s' m sents candidates minScore w x) →
      (isRemoved s' nouns minScore w = true ↔ DroppedBy cohesion p s' m sents candidates minScore w) := by
    intro w hsw
    unfold isRemoved DroppedBy
    by_cases hp : w.getLast? = some '.' ∨ w.getLast? = some ','
    · rw [if_pos hp]
      constructor
      · intro _; rcases hp with hp | hp
        · exact Or.inl hp
        · exact Or.inr (Or.inl hp)
      · intro _; rfl
    · rw [if_neg hp]
      have hp1 : ¬ w.getLast? = some '.' := fun h => hp (Or.inl h)
      have hp2 : ¬ w.getLast? = some ',' := fun h => hp (Or.inr h)
      by_cases hl : w.length ≤ 2
      · rw [if_pos (Or.inl hl)]
        simp only [hp1, hp2, false_or, Bool.false_eq_true, false_iff]
        rintro ⟨a, _⟩; omega
      · have hl3 : 3 ≤ w.length := by omega
        have hce := hcoh w hl3
        by_cases hco : longerHasLargerCohesion s'.substringCounter w = true
        · rw [if_pos (Or.inr hco)]
          simp only [hp1, hp2, false_or, Bool.false_eq_true, false_iff]
          rintro ⟨_, b, _⟩
          exact absurd (hce.1 hco) (not_le.2 b)
        · rw [if_neg (by rintro (a | a); exact hl a; exact hco a)]
          have hlt : cohesion w < cohesion w.dropLast := not_le.1 (fun hh => hco (hce.2 hh))
          simp only [hp1, hp2, false_or, hl3, hlt, true_and]
          rw [List.any_eq_true]
          constructor
          · rintro ⟨e, he, hx⟩
            obtain ⟨i, hi, rfl⟩ := List.mem_map.1 he
            rw [List.mem_range] at hi
            rw [Bool.and_eq_true, Dict.isSome_get?_iff, decide_eq_true_eq, ← Dict.isSome_get?_iff] at hx
            obtain ⟨y, hy⟩ := Option.isSome_iff_exists.1 hx.1
            refine ⟨w.take (i + 2), w.drop (i + 2), (List.take_append_drop _ _).symm, ?_, ?_, ⟨y, (hscored _ _).1 hy⟩, hx.2⟩
            · rw [List.length_take]; omega
            · intro hh; have := congrArg List.length hh; rw [List.length_drop, List.length_nil] at this; omega
          · rintro ⟨l, r, rfl, h2, hr, ⟨y, hy⟩, hc⟩
            have hrl := List.length_pos_iff.2 hr
            refine ⟨l.length, List.mem_map.2 ⟨l.length - 2, ?_, by omega⟩, ?_⟩
            · rw [List.mem_range, List.length_append]; omega
            · rw [List.take_left, List.drop_left, Bool.and_eq_true, decide_eq_true_eq]
              refine ⟨?_, hc⟩
              show (Dict.get? nouns l).isSome = true
              rw [(hscored l y).2 hy]; rfl
  have hpost : ∀ w x, (w, x) ∈ postprocess s' nouns minScore ↔ Dict.get? nouns w = some x ∧ isRemoved s' nouns minScore w = false := by
    intro w x
    unfold postprocess
    rw [List.mem_filter, Dict.mem_iff_get? hw]
    simp
  constructor
  · intro ns hm
    rw [hres'] at hm
    have hm' : (w, ns) ∈ (postprocess s' nouns minScore).map (fun e => (e.1, (⟨Dict.getD (claim g [] (sorted longerLe (Dict.keys (postprocess s' nouns minScore)))).2 e.1 0, e.2.1, e.2.2⟩ : V1.NounScore))) := hm
    obtain ⟨⟨w0, x⟩, hx, e⟩ := List.mem_map.1 hm'
    have ew : w0 = w := congrArg Prod.fst e
    subst ew
    have en1 := congrArg (fun z : Str × V1.NounScore => z.2.score) e
    have en2 := congrArg (fun z : Str × V1.NounScore => z.2.knownRRatio) e
    exact ⟨x, (hscored _ _).1 ((hpost w0 x).1 hx).1, en1.symm, en2.symm⟩
  · rw [hkeys]
    constructor
    · intro hm
      obtain ⟨⟨w0, x⟩, hx, rfl⟩ := List.mem_map.1 hm
      obtain ⟨a, b⟩ := (hpost w0 x).1 hx
      have hsw : ∃ x, Scored p s' m sents candidates minScore w0 x := ⟨x, (hscored _ _).1 a⟩
      refine ⟨hsw, fun hd => ?_⟩
      have b : isRemoved s' nouns minScore w0 = false := b
      rw [(hdrop w0 hsw).2 hd] at b; cases b
    · rintro ⟨hsw, hd⟩
      obtain ⟨x, hx⟩ := id hsw
      refine List.mem_map.2 ⟨(w, x), (hpost w x).2 ⟨(hscored _ _).2 hx, ?_⟩, rfl⟩
      cases hr : isRemoved s' nouns minScore w with
      | false => rfl
      | true => exact absurd ((hdrop w hsw).1 hr) hd

/-- C45: `extract` returns exactly the candidates of at least two characters whose `predict` score reaches the threshold
    and that are not dropped (final '.' or ','; or less cohesive than without their last character and splitting into a
    scored word plus a right part above the threshold), each with that score. In particular `min_noun_frequency` plays no
    role in `extract`. -/
theorem C45_extracted (p : V1.Params) (s s' : V1.State) (sents : List Str) (m : Int) (h : V1.train p s sents m = .ok s')
    (ord : List Str) (hord : ord.Perm (Dict.keys s'.substringCounter)) (minScore : Rat) (candidates : List Str)
    (res : Dict Str V1.NounScore) (hres : V1.extract p s' ord minScore candidates = .ok (s', res)) (w : Str) :
    (∀ ns, (w, ns) ∈ res → ∃ x, Scored p s' m sents candidates minScore w x ∧ ns.score = x.1 ∧ ns.knownRRatio = x.2) ∧
    (w ∈ res.map (·.1) ↔ (∃ x, Scored p s' m sents candidates minScore w x) ∧ ¬ Dropped p s' m sents candidates minScore w) := by
  obtain ⟨g, h1, _, _, _, _, _, hsc, _⟩ := train_ok h
  exact v1_extracted p s' s' sents m g h1 (cohesionOf p m sents) (fun w hw => C45_cohesion_exact p s s' sents m h w hw) ord
    (fun w => by rw [hord.mem_iff, hsc, v1_mem_left]) minScore candidates res hres w

/-! ### the two tokenisations -/

private theorem splitOnGo_clean (w cur : Str) (hw : ' ' ∉ w) (s : Str) :
    splitOnGo ' ' cur (w ++ ' ' :: s) = (cur ++ w) :: splitOnGo ' ' [] s := by
  induction w generalizing cur with
  | nil => simp [splitOnGo]
  | cons c w ih =>
    have hc : ¬ c = ' ' := fun h => hw (by simp [h])
    simp only [List.cons_append, splitOnGo, if_neg hc]
    rw [ih (cur ++ [c]) (fun h => hw (by simp [h]))]
    simp

private theorem splitOnGo_end (w cur : Str) (hw : ' ' ∉ w) : splitOnGo ' ' cur w = [cur ++ w] := by
  induction w generalizing cur with
  | nil => simp [splitOnGo]
  | cons c w ih =>
    have hc : ¬ c = ' ' := fun h => hw (by simp [h])
    simp only [splitOnGo, if_neg hc]
    rw [ih (cur ++ [c]) (fun h => hw (by simp [h]))]
    simp

private theorem splitOn_join (ws : List Str) (hne : ws ≠ []) (h : ∀ w ∈ ws, ' ' ∉ w) : splitOn ' ' (join [' '] ws) = ws := by
  induction ws with
  | nil => exact absurd rfl hne
  | cons w ws ih =>
    cases ws with
    | nil => unfold splitOn join; rw [splitOnGo_end _ _ (h w (by simp))]; simp
    | cons v ws =>
      have e : join [' '] (w :: v :: ws) = w ++ ' ' :: join [' '] (v :: ws) := by simp [join]
      rw [e]
      unfold splitOn at ih ⊢
      rw [splitOnGo_clean _ _ (h w (by simp)), ih (by simp) (fun x hx => h x (by simp [hx]))]
      rfl

/-- C45: unless `ensure_normalized` is set, both scans see the same eojeols. -/
theorem C45_scans_agree (p : V1.Params) (hp : p.ensureNormalized = false) (sents : List Str) : v1Blanks p sents = v1Tokens p sents := by
  unfold v1Blanks v1Tokens
  congr 1
  funext sent
  unfold v1Norm
  rw [hp]
  simp only [Bool.false_eq_true, if_false]
  unfold Normalizer.normalizeSentForLrgraph
  dsimp only
  generalize hws : ((splitWs (Normalizer.blankOut Normalizer.symbolClass (Normalizer.blankOut (fun c => !Normalizer.textClass c) sent))).map
    Normalizer.remainHangleOnLast).filter (fun e => decide (e ≠ [])) = ws
  have hclean : Words ws := by
    intro w hw
    rw [← hws, List.mem_filter, List.mem_map] at hw
    obtain ⟨⟨e, he, rfl⟩, hne⟩ := hw
    refine ⟨by simpa using hne, ?_⟩
    intro c hc
    have hns := splitWs_nospace he
    apply hns
    unfold Normalizer.remainHangleOnLast at hc
    dsimp only at hc
    split at hc
    · simp at hc
    · rename_i i _
      have hsub : strip (e.take (i + 1)) ⊆ e.take (i + 1) := by
        intro x hx
        unfold strip rstrip lstrip at hx
        have h1 := List.mem_reverse.1 hx
        have h2 := (List.dropWhile_sublist _).subset h1
        have h3 := List.mem_reverse.1 h2
        exact (List.dropWhile_sublist _).subset h3
      exact List.take_subset _ _ (hsub hc)
  by_cases hz : ws = []
  · rw [if_pos hz]; rfl
  · rw [if_neg hz, splitOn_join ws hz, splitWs_join ws hclean, List.filter_eq_self]
    · intro w hw; simpa using (hclean w hw).1
    · intro w hw hb
      have := (hclean w hw).2 ' ' hb
      simp at this

/-- C45 (deviation): with `ensure_normalized=True` a sentence containing a tab is scanned as one piece but counted as two
    eojeols, so the words found in the graph differ from those whose frequency was counted. -/
theorem C45_scans_differ : v1Blanks { ensureNormalized := true } ["학교는\t학교를".toList] = ["학교는\t학교를".toList] ∧
    v1Tokens { ensureNormalized := true } ["학교는\t학교를".toList] = ["학교는".toList, "학교를".toList] := by
  decide +kernel

/-! ### a concrete case -/

private def v1coef : Dict Str Rat := [("는".toList, 1), ("를".toList, 1), ("에".toList, 1/2), ("다".toList, -1)]
private def v1corpus : List Str := ["학교는 학교를 학교에 학교".toList, "먹다".toList]

example : ∃ s', V1.train {} { coefficient := v1coef } v1corpus 1 = .ok s' := (C45_train _ _ _ _).2 (by decide)
example : (match V1.train {} { coefficient := v1coef } v1corpus 1 with
    | .ok s => (match V1.extract {} s (Dict.keys s.substringCounter) with
      | .ok r => decide (r.2 = [("학교".toList, ⟨4, 5/6, 1⟩)])
      | .error _ => false)
    | .error _ => false) = true := by decide +kernel

end Props
