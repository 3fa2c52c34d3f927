import Verif.Model.NounV1
import Verif.Proofs.Claim
import Verif.Proofs.WordExtractor
/-! Lemmas about `LRNounExtractor` (v1): the trained graph, prediction and claiming. -/
namespace V1
open Py Nested

/-! ### the trained tables -/

theorem lefts_eq (p : Params) (t : Str) : lefts p t = WX.lefts (p.maxLeft - 1) t := by
  unfold lefts WX.lefts; rw [Int.sub_add_cancel]
theorem rights_eq (p : Params) (t : Str) : rights p t = WX.rights (p.maxRight - 1) t := by
  unfold rights WX.rights; rw [Int.sub_add_cancel]

/-- `w` is a non-empty prefix of the token within the left length limit -/
def IsLeft (p : Params) (t w : Str) : Bool := decide (w ≠ [] ∧ (w.length : Int) ≤ p.maxLeft) && w.isPrefixOf t
/-- `r` is a non-empty proper suffix of the token, shorter than the right length limit -/
def IsRight (p : Params) (t r : Str) : Bool := decide (r ≠ [] ∧ (r.length : Int) < p.maxRight ∧ r.length < t.length) && r.isSuffixOf t

theorem mem_lefts {p : Params} {t w : Str} : w ∈ lefts p t ↔ IsLeft p t w = true := by
  rw [lefts_eq, WX.mem_lefts]
  simp only [IsLeft, Bool.and_eq_true, decide_eq_true_eq, List.isPrefixOf_iff_prefix]
  constructor
  · rintro ⟨a, b, c⟩; exact ⟨⟨a, by omega⟩, c⟩
  · rintro ⟨⟨a, b⟩, c⟩; exact ⟨a, by omega, c⟩

theorem mem_rights {p : Params} {t r : Str} : r ∈ rights p t ↔ IsRight p t r = true := by
  rw [rights_eq, WX.mem_rights]
  simp only [IsRight, Bool.and_eq_true, decide_eq_true_eq, List.isSuffixOf_iff_suffix]
  constructor
  · rintro ⟨a, b, c, d⟩; exact ⟨⟨a, by omega, d⟩, c⟩
  · rintro ⟨⟨a, b, d⟩, c⟩; exact ⟨a, by omega, c, d⟩

theorem count_lefts (p : Params) (ts : List Str) (w : Str) : (ts.flatMap (lefts p)).count w = ts.countP (fun t => IsLeft p t w) :=
  WX.count_flatMap_indicator ts (lefts p) (fun t => IsLeft p t w) w (fun t _ => by rw [lefts_eq]; exact WX.nodup_lefts _ _)
    (fun t _ => mem_lefts)

theorem count_rights (p : Params) (ts : List Str) (w : Str) : (ts.flatMap (rights p)).count w = ts.countP (fun t => IsRight p t w) :=
  WX.count_flatMap_indicator ts (rights p) (fun t => IsRight p t w) w (fun t _ => by rw [rights_eq]; exact WX.nodup_rights _ _)
    (fun t _ => mem_rights)

theorem get?_counter_str (xs : List Str) (k : Str) : Dict.get? (Dict.counter xs) k = if k ∈ xs then some (xs.count k) else none := by
  rw [Dict.get?_counter]
  congr 2
  unfold List.count
  apply List.countP_congr
  intro x _; simp

theorem wf_scan (p : Params) (sents : List Str) (m : Int) : Dict.WF (scanVocabulary p sents m).1 :=
  (Dict.wf_counter _).filter _

theorem get?_scan (p : Params) (sents : List Str) (m : Int) (w : Str) :
    Dict.get? (scanVocabulary p sents m).1 w =
      let n := (scanTokens p sents).countP (fun t => IsLeft p t w)
      if 0 < n ∧ m ≤ (n : Int) then some n else none := by
  show Dict.get? (List.filter _ _) w = _
  rw [Dict.get?_filter (Dict.wf_counter _), get?_counter_str, count_lefts]
  dsimp only
  have hmem : w ∈ (scanTokens p sents).flatMap (lefts p) ↔ 0 < (scanTokens p sents).countP (fun t => IsLeft p t w) := by
    rw [← count_lefts, List.count_pos_iff]
  by_cases h : w ∈ (scanTokens p sents).flatMap (lefts p)
  · rw [if_pos h]
    have := hmem.1 h
    by_cases h2 : m ≤ ((scanTokens p sents).countP (fun t => IsLeft p t w) : Int)
    · rw [if_pos ⟨this, h2⟩]; simp [h2]
    · rw [if_neg (fun hh => h2 hh.2)]; simp; omega
  · rw [if_neg h, if_neg (fun hh => h (hmem.2 hh.1))]; rfl

theorem mem_keys_scan (p : Params) (sents : List Str) (m : Int) (w : Str) :
    w ∈ Dict.keys (scanVocabulary p sents m).1 ↔ 0 < (scanTokens p sents).countP (fun t => IsLeft p t w) ∧
      m ≤ ((scanTokens p sents).countP (fun t => IsLeft p t w) : Int) := by
  rw [← Dict.isSome_get?_iff, get?_scan]
  dsimp only
  split
  · rename_i h; simp [h]
  · rename_i h; simp only [Option.isSome_none, Bool.false_eq_true, false_iff]; exact h

theorem mem_scan_right (p : Params) (sents : List Str) (m : Int) (r : Str) :
    r ∈ (scanVocabulary p sents m).2 ↔ 0 < (scanTokens p sents).countP (fun t => IsRight p t r) ∧
      m ≤ ((scanTokens p sents).countP (fun t => IsRight p t r) : Int) := by
  show r ∈ (List.filter _ _).map _ ↔ _
  rw [List.mem_map]
  constructor
  · rintro ⟨⟨r', n⟩, hm, rfl⟩
    rw [List.mem_filter, Dict.mem_iff_get? (Dict.wf_counter _), get?_counter_str, count_rights] at hm
    obtain ⟨h1, h2⟩ := hm
    split at h1
    · rename_i hx
      cases h1
      rw [← List.count_pos_iff, count_rights] at hx
      exact ⟨hx, by simpa using h2⟩
    · cases h1
  · rintro ⟨h1, h2⟩
    refine ⟨(r, (scanTokens p sents).countP (fun t => IsRight p t r)), ?_, rfl⟩
    rw [List.mem_filter, Dict.mem_iff_get? (Dict.wf_counter _), get?_counter_str, count_rights]
    rw [← count_rights, List.count_pos_iff] at h1
    exact ⟨by rw [if_pos h1], by simpa using h2⟩

/-! ### the graph -/

theorem mem_pairs {p : Params} {wl wr : List Str} {t l r : Str} :
    (l, r) ∈ pairs p wl wr t ↔ l ++ r = t ∧ l ≠ [] ∧ (l.length : Int) ≤ p.maxLeft ∧ l ∈ wl ∧ (r = [] ∨ r ∈ wr) := by
  unfold pairs
  rw [List.mem_filter, List.mem_map]
  simp only [Bool.and_eq_true, Bool.or_eq_true, decide_eq_true_eq, List.contains_iff_mem, List.mem_range]
  constructor
  · rintro ⟨⟨i, hi, e⟩, h1, h2⟩
    have e1 : t.take (i + 1) = l := congrArg Prod.fst e
    have e2 : t.drop (i + 1) = r := congrArg Prod.snd e
    have hlen : l.length = i + 1 := by rw [← e1, List.length_take]; omega
    refine ⟨by rw [← e1, ← e2, List.take_append_drop], ?_, by omega, h1, h2⟩
    intro h; rw [h] at hlen; simp at hlen
  · rintro ⟨rfl, hl, hm, h1, h2⟩
    have := List.length_pos_iff.2 hl
    refine ⟨⟨l.length - 1, by simp; omega, ?_⟩, h1, h2⟩
    rw [Nat.sub_add_cancel this, List.take_left, List.drop_left]

theorem pairs_nodup (p : Params) (wl wr : List Str) (t : Str) : (pairs p wl wr t).Nodup := by
  unfold pairs
  apply List.Nodup.filter
  have : List.Nodup (List.range (min p.maxLeft t.length).toNat) := List.nodup_range
  rw [List.nodup_iff_pairwise_ne, List.pairwise_map]
  refine List.Pairwise.imp_of_mem ?_ this
  intro i j hi hj hij e
  rw [List.mem_range] at hi hj
  have := congrArg (fun x : Str × Str => x.1.length) e
  simp only [List.length_take] at this
  omega

theorem wf2_build (p : Params) (sents : List Str) (wl wr : List Str) : WF2 (buildLrgraph p sents wl wr) :=
  WF2.foldl_nadd _ (fun x : Str × Str => x.1) (fun x => x.2) (fun _ => 1) wf2_nil

/-- the edges of the built graph -/
theorem get2_build (p : Params) (sents : List Str) (wl wr : List Str) (l r : Str) (c : Int) :
    get2 (buildLrgraph p sents wl wr) l r = some c ↔
      (l ≠ [] ∧ (l.length : Int) ≤ p.maxLeft ∧ l ∈ wl ∧ (r = [] ∨ r ∈ wr)) ∧ l ++ r ∈ graphTokens p sents ∧
      c = ((graphTokens p sents).countP (fun t => decide (t = l ++ r)) : Int) := by
  have h1 := isSome_get2_foldl_nadd ((graphTokens p sents).flatMap (pairs p wl wr)) (fun x : Str × Str => x.1) (fun x => x.2) (fun _ => (1 : Int)) [] l r
  have h2 := getD_get2_foldl_nadd ((graphTokens p sents).flatMap (pairs p wl wr)) (fun x : Str × Str => x.1) (fun x => x.2) (fun _ => (1 : Int)) [] l r
  have hg : buildLrgraph p sents wl wr = ((graphTokens p sents).flatMap (pairs p wl wr)).foldl (fun g x => nadd g x.1 x.2 1) [] := rfl
  rw [← hg] at h1 h2
  have hsum : ((((graphTokens p sents).flatMap (pairs p wl wr)).filter (fun x => decide (x.1 = l ∧ x.2 = r))).map (fun _ => (1 : Int))).sum =
      if l ≠ [] ∧ (l.length : Int) ≤ p.maxLeft ∧ l ∈ wl ∧ (r = [] ∨ r ∈ wr) then ((graphTokens p sents).countP (fun t => decide (t = l ++ r)) : Int) else 0 := by
    generalize graphTokens p sents = ts
    have one : ∀ t : Str, (((pairs p wl wr t).filter (fun x => decide (x.1 = l ∧ x.2 = r))).map (fun _ => (1 : Int))).sum =
        if t = l ++ r ∧ l ≠ [] ∧ (l.length : Int) ≤ p.maxLeft ∧ l ∈ wl ∧ (r = [] ∨ r ∈ wr) then 1 else 0 := by
      intro t
      have hnd := pairs_nodup p wl wr t
      have hf : (pairs p wl wr t).filter (fun x => decide (x.1 = l ∧ x.2 = r)) = if (l, r) ∈ pairs p wl wr t then [(l, r)] else [] := by
        generalize pairs p wl wr t = ps at *
        induction ps with
        | nil => rfl
        | cons q ps ih =>
          rw [List.nodup_cons] at hnd
          rw [List.filter_cons, ih hnd.2]
          by_cases hq : q = (l, r)
          · subst hq; simp [hnd.1]
          · have : ¬ (q.1 = l ∧ q.2 = r) := fun h => hq (Prod.ext h.1 h.2)
            have hq' : ¬ (l, r) = q := fun h => hq h.symm
            simp [this, hq']
      rw [hf]
      by_cases hm : (l, r) ∈ pairs p wl wr t
      · obtain ⟨a, b⟩ := mem_pairs.1 hm
        rw [if_pos hm, if_pos ⟨a.symm, b⟩]; rfl
      · rw [if_neg hm, if_neg (fun h => hm (mem_pairs.2 ⟨h.1.symm, h.2⟩))]; rfl
    induction ts with
    | nil => simp
    | cons t ts ih =>
      rw [List.flatMap_cons, List.filter_append, List.map_append, List.sum_append, ih, one, List.countP_cons]
      by_cases hc : l ≠ [] ∧ (l.length : Int) ≤ p.maxLeft ∧ l ∈ wl ∧ (r = [] ∨ r ∈ wr)
      · rw [if_pos hc, if_pos hc]
        by_cases ht : t = l ++ r
        · rw [if_pos ⟨ht, hc⟩]; simp [ht]; omega
        · rw [if_neg (fun h => ht h.1)]; simp [ht]
      · rw [if_neg hc, if_neg hc, if_neg (fun h => hc h.2)]; rfl
  have h0 : get2 ([] : Nested Str) l r = none := rfl
  rw [h0] at h1 h2
  have hex : (∃ x ∈ (graphTokens p sents).flatMap (pairs p wl wr), x.1 = l ∧ x.2 = r) ↔
      (l ≠ [] ∧ (l.length : Int) ≤ p.maxLeft ∧ l ∈ wl ∧ (r = [] ∨ r ∈ wr)) ∧ l ++ r ∈ graphTokens p sents := by
    constructor
    · rintro ⟨⟨a, b⟩, hm, rfl, rfl⟩
      obtain ⟨t, ht, hp⟩ := List.mem_flatMap.1 hm
      obtain ⟨e, rest⟩ := mem_pairs.1 hp
      exact ⟨rest, by rw [e]; exact ht⟩
    · rintro ⟨rest, ht⟩
      exact ⟨(l, r), List.mem_flatMap.2 ⟨_, ht, mem_pairs.2 ⟨rfl, rest⟩⟩, rfl, rfl⟩
  constructor
  · intro h
    rw [h] at h1 h2
    have hx := hex.1 (by simpa using h1)
    refine ⟨hx.1, hx.2, ?_⟩
    have h2' : c = 0 + ((((graphTokens p sents).flatMap (pairs p wl wr)).filter (fun x => decide (x.1 = l ∧ x.2 = r))).map (fun _ => (1 : Int))).sum := h2
    rw [h2', hsum, if_pos hx.1]; omega
  · rintro ⟨ha, hb, rfl⟩
    have hs : (get2 (buildLrgraph p sents wl wr) l r).isSome = true := by
      rw [h1]; right; exact hex.2 ⟨ha, hb⟩
    obtain ⟨c, hc⟩ := Option.isSome_iff_exists.1 hs
    rw [hc] at h2 ⊢
    have h2' : c = 0 + ((((graphTokens p sents).flatMap (pairs p wl wr)).filter (fun x => decide (x.1 = l ∧ x.2 = r))).map (fun _ => (1 : Int))).sum := h2
    rw [h2', hsum, if_pos ha]; simp

theorem wsum_tokens (ts : List Str) (P : Str → Prop) [DecidablePred P] :
    LR.wsum (ts.map (fun t => (t, (1 : Int)))) P = ((ts.filter (fun t => decide (P t))).length : Int) := by
  classical
  induction ts with
  | nil => rfl
  | cons t ts ih =>
    rw [List.map_cons, LR.wsum_cons, ih, List.filter_cons]
    by_cases h : P t
    · simp [h]; omega
    · simp [h]

/-- the state after training -/
theorem train_ok {p : Params} {s s' : State} {sents : List Str} {m : Int} (h : train p s sents m = .ok s') :
    ∃ g, s'.lrgraph = some g ∧ LR.Inv g ∧ g.origin = some g.lr ∧ g.rl = LR.reverse g.lr ∧
      g.lr = buildLrgraph p sents (Dict.keys (scanVocabulary p sents m).1) (scanVocabulary p sents m).2 ∧
      s'.coefficient = s.coefficient ∧ s'.substringCounter = (scanVocabulary p sents m).1 ∧ sents ≠ [] := by
  unfold train at h
  split at h
  · cases h
  · rename_i hne
    dsimp only at h
    cases hc : LR.construct (buildLrgraph p sents (Dict.keys (scanVocabulary p sents m).1) (scanVocabulary p sents m).2) with
    | error e => rw [hc] at h; cases h
    | ok g =>
      rw [hc] at h
      obtain ⟨h1, h2, h3, _, _, h4⟩ := LR.construct_inv (wf2_build p sents _ _) hc
      have := Except.ok.inj h
      subst this
      exact ⟨g, rfl, h1, h2, h3, by rw [h4, if_pos rfl], rfl, rfl, hne⟩

theorem train_total (p : Params) (s : State) (sents : List Str) (m : Int) (hne : sents ≠ []) : ∃ s', train p s sents m = .ok s' := by
  obtain ⟨g, hg, _⟩ := LR.inv_ofGraph (wf2_build p sents (Dict.keys (scanVocabulary p sents m).1) (scanVocabulary p sents m).2) 10 9
  refine ⟨{ s with lrgraph := some g, substringCounter := (scanVocabulary p sents m).1 }, ?_⟩
  have : LR.construct (buildLrgraph p sents (Dict.keys (scanVocabulary p sents m).1) (scanVocabulary p sents m).2) = .ok g := by
    simp [LR.construct, hg]
  unfold train
  rw [if_neg hne]
  dsimp only
  rw [this]

theorem train_cons {p : Params} {sents : List Str} {wl wr : List Str} {g : LR.State} (hi : LR.Inv g)
    (hg : g.lr = buildLrgraph p sents wl wr) :
    LR.Cons (fun x => LR.wsum ((graphTokens p sents).map (fun t => (t, (1 : Int)))) (fun e => e = x)) g := by
  refine ⟨hi, ?_⟩
  intro l r c hc
  rw [hg, get2_build] at hc
  obtain ⟨h1, h2, h3⟩ := hc
  refine ⟨h1.1, ?_, ?_⟩
  · rw [h3]
    have : 0 < (graphTokens p sents).countP (fun t => decide (t = l ++ r)) := List.countP_pos_iff.2 ⟨_, h2, by simp⟩
    omega
  · rw [h3, wsum_tokens, List.countP_eq_length_filter]

/-! ### prediction in `extract` -/

/-- the score `extract` gives a word -/
def score (p : Params) (coef : Dict Str Rat) (g : LR.State) (w : Str) : Rat × Rat :=
  if ((rFeatures g w).length : Int) > p.minNumOfFeatures then predictFeatures coef (rFeatures g w) w else (0, 0)

theorem subwordScore_nil (coef : Dict Str Rat) (w : Str) (m : MinArg) : subwordScore coef w m [] = .ok (0, 0) := by
  have : ∀ es : List Nat, es.mapM (subwordCut coef m [] w) = .ok (es.map (fun _ => none)) := by
    intro es
    induction es with
    | nil => rfl
    | cons e es ih => rw [List.mapM_cons, ih]; rfl
  have hf : ∀ es : List Nat, (es.map (fun _ => (none : Option (Str × (Rat × Rat))))).filterMap id = [] := by
    intro es; induction es with
    | nil => rfl
    | cons e es ih => simp
  unfold subwordScore
  rw [this]
  show Except.ok (bestSubword _) = _
  rw [hf]; rfl

theorem predict_table {p : Params} {s : State} {g : LR.State} (h : s.lrgraph = some g) (w : Str) (d : Dict Str (Rat × Rat)) :
    predict p s w (.table d) none = .ok (score p s.coefficient g w) := by
  unfold predict score
  rw [h]
  dsimp only
  split
  · rfl
  · exact subwordScore_nil _ _ _

theorem predictAll_spec {p : Params} {s : State} {g : LR.State} (h : s.lrgraph = some g) (m : Rat) (ws : List Str) (d : Dict Str (Rat × Rat))
    (hd : d.WF) : ∃ d', predictAll p s m d ws = .ok d' ∧ d'.WF ∧ ∀ w x, Dict.get? d' w = some x ↔
      (w ∈ ws ∧ 2 ≤ w.length ∧ m ≤ (score p s.coefficient g w).1 ∧ x = score p s.coefficient g w) ∨
      (¬ (w ∈ ws ∧ 2 ≤ w.length ∧ m ≤ (score p s.coefficient g w).1) ∧ Dict.get? d w = some x) := by
  induction ws generalizing d with
  | nil => exact ⟨d, rfl, hd, fun w x => by simp⟩
  | cons v ws ih =>
    unfold predictAll
    by_cases h1 : v.length ≤ 1
    · rw [if_pos h1]
      obtain ⟨d', e, hw, hs⟩ := ih d hd
      refine ⟨d', e, hw, fun w x => ?_⟩
      rw [hs]
      have : w ∈ v :: ws ∧ 2 ≤ w.length ↔ w ∈ ws ∧ 2 ≤ w.length := by
        rw [List.mem_cons]
        constructor
        · rintro ⟨rfl | hm, hl⟩
          · omega
          · exact ⟨hm, hl⟩
        · rintro ⟨hm, hl⟩; exact ⟨Or.inr hm, hl⟩
      rw [← and_assoc, ← and_assoc (a := w ∈ v :: ws), this, ← and_assoc (a := w ∈ ws), ← and_assoc (a := w ∈ v :: ws), this]
    · rw [if_neg h1, predict_table h]
      dsimp only
      by_cases h2 : (score p s.coefficient g v).1 < m
      · rw [if_pos h2]
        obtain ⟨d', e, hw, hs⟩ := ih d hd
        refine ⟨d', e, hw, fun w x => ?_⟩
        rw [hs]
        have : (w ∈ v :: ws ∧ 2 ≤ w.length ∧ m ≤ (score p s.coefficient g w).1) ↔ (w ∈ ws ∧ 2 ≤ w.length ∧ m ≤ (score p s.coefficient g w).1) := by
          rw [List.mem_cons]
          constructor
          · rintro ⟨rfl | hm, hl⟩
            · exact absurd h2 (Rat.not_lt.2 hl.2)
            · exact ⟨hm, hl⟩
          · rintro ⟨hm, hl⟩; exact ⟨Or.inr hm, hl⟩
        rw [this]
        constructor
        · rintro (⟨a, b, c, d⟩ | hh)
          · exact Or.inl ⟨List.mem_cons_of_mem _ a, b, c, d⟩
          · exact Or.inr hh
        · rintro (⟨a, b, c, d⟩ | hh)
          · obtain ⟨a', b', c'⟩ := this.1 ⟨a, b, c⟩
            exact Or.inl ⟨a', b', c', d⟩
          · exact Or.inr hh
      · rw [if_neg h2]
        obtain ⟨d', e, hw, hs⟩ := ih (Dict.set d v (score p s.coefficient g v)) (hd.set _ _)
        refine ⟨d', e, hw, fun w x => ?_⟩
        rw [hs, Dict.get?_set]
        have h2' := Rat.not_lt.1 h2
        by_cases hv : v = w
        · subst hv
          simp only [if_true, List.mem_cons, true_or, true_and]
          have hl : 2 ≤ v.length := by omega
          simp only [hl, h2', true_and, and_true, not_true, false_and, or_false]
          constructor
          · rintro (hh | hh)
            · exact hh.2
            · exact (Option.some.inj hh.2).symm
          · rintro rfl
            by_cases hm : v ∈ ws
            · exact Or.inl ⟨hm, rfl⟩
            · exact Or.inr ⟨hm, rfl⟩
        · have hv' : ¬ w = v := fun h => hv h.symm
          rw [if_neg hv]
          simp only [List.mem_cons, hv', false_or]

/-! ### claiming -/

theorem claim_eq (g : LR.State) (freqs : Dict Str Int) (ws : List Str) :
    claim g freqs ws = ((LR.claimAll (fun _ _ => true) g ws).1,
      (LR.claimAll (fun _ _ => true) g ws).2.foldl (fun d e => Dict.set d e.1 e.2) freqs) := by
  induction ws generalizing g freqs with
  | nil => rfl
  | cons w ws ih =>
    unfold claim
    dsimp only
    rw [ih]
    have hf : (LR.getR g w (-1)).filter (fun rc => (fun _ _ => true : Str → Str → Bool) w rc.1) = LR.getR g w (-1) :=
      List.filter_eq_self.2 (by simp)
    simp only [LR.claimAll, hf, List.foldl_cons]
    rfl

theorem removeEojeol_limits (s : LR.State) (w : Str) (k : Int) :
    (LR.removeEojeol s w k).lMax = s.lMax ∧ (LR.removeEojeol s w k).rMax = s.rMax := by
  unfold LR.removeEojeol
  generalize LR.cuts w = ps
  induction ps generalizing s with
  | nil => exact ⟨rfl, rfl⟩
  | cons p ps ih => rw [List.foldl_cons]; exact ih _

theorem claimAll_limits (q : Str → Str → Bool) (s : LR.State) (ws : List Str) :
    (LR.claimAll q s ws).1.lMax = s.lMax ∧ (LR.claimAll q s ws).1.rMax = s.rMax := by
  induction ws generalizing s with
  | nil => exact ⟨rfl, rfl⟩
  | cons w ws ih =>
    simp only [LR.claimAll]
    have : ∀ (rs : List (Str × Int)) (s : LR.State), (rs.foldl (fun g rc => LR.removeEojeol g (w ++ rc.1) rc.2) s).lMax = s.lMax ∧
        (rs.foldl (fun g rc => LR.removeEojeol g (w ++ rc.1) rc.2) s).rMax = s.rMax := by
      intro rs
      induction rs with
      | nil => intro s; exact ⟨rfl, rfl⟩
      | cons rc rs ih2 =>
        intro s
        rw [List.foldl_cons]
        have a := removeEojeol_limits s (w ++ rc.1) rc.2
        have b := ih2 (LR.removeEojeol s (w ++ rc.1) rc.2)
        exact ⟨b.1.trans a.1, b.2.trans a.2⟩
    have a := ih (((LR.getR s w (-1)).filter (fun rc => q w rc.1)).foldl (fun g rc => LR.removeEojeol g (w ++ rc.1) rc.2) s)
    have b := this ((LR.getR s w (-1)).filter (fun rc => q w rc.1)) s
    exact ⟨a.1.trans b.1, a.2.trans b.2⟩

theorem claimAll_empty (q : Str → Str → Bool) (s : LR.State) (h : s.lr = []) (ws : List Str) : (LR.claimAll q s ws).1 = s := by
  induction ws with
  | nil => rfl
  | cons w ws ih =>
    simp only [LR.claimAll]
    have : LR.getR s w (-1) = [] := by unfold LR.getR LR.topK row; rw [h]; rfl
    rw [this]; exact ih

/-- claiming and then resetting a freshly constructed graph gives it back -/
theorem reset_claimAll (q : Str → Str → Bool) {N : Str → Int} {g : LR.State} (hc : LR.Cons N g) (ho : g.origin = some g.lr)
    (hr : g.rl = LR.reverse g.lr) (ws : List Str) : LR.reset (LR.claimAll q g ws).1 = (g, .ok ()) := by
  obtain ⟨_, h2, _⟩ := LR.claimAll_state q hc ws
  by_cases he : g.lr = []
  · rw [claimAll_empty q g he]
    unfold LR.reset; rw [ho]; dsimp only; rw [if_pos he]
  · obtain ⟨h3, h4⟩ := claimAll_limits q g ws
    unfold LR.reset
    rw [h2, ho]
    dsimp only
    rw [if_neg he, LR.checkLrgraph, if_neg he]
    dsimp only
    rw [← hr]
    generalize (LR.claimAll q g ws).1 = c at *
    obtain ⟨a, b, o, lm, rm⟩ := c
    obtain ⟨a', b', o', lm', rm'⟩ := g
    dsimp only at *
    subst h2; subst h3; subst h4
    rw [ho]

theorem get?_foldl_set_nodup (xs : List (Str × Int)) (hnd : (xs.map (·.1)).Nodup) {w : Str} {v : Int} (hm : (w, v) ∈ xs) :
    Dict.get? (xs.foldl (fun d e => Dict.set d e.1 e.2) []) w = some v := by
  have h1 : xs.foldl (fun d e => Dict.set d e.1 e.2) [] = Dict.ofList xs := rfl
  rw [h1, Dict.get?_map_ofList xs hnd]
  exact Dict.get?_of_mem hnd hm

theorem longerLe_totalPre : TotalPre longerLe := by
  constructor
  · intro a b c h1 h2; simp only [longerLe, decide_eq_true_eq] at *; omega
  · intro a b; simp only [longerLe, decide_eq_true_eq]; omega

/-- the eojeol `e` has an edge starting with the word `w` -/
def HasEdge (g : LR.State) (w e : Str) : Prop := ∃ r, (get2 g.lr w r).isSome = true ∧ w ++ r = e

/-- the frequencies: the weight of the eojeols whose longest noun (with an edge) the word is -/
theorem claim_freq {E : List (Str × Int)} {g : LR.State} (hc : LR.Cons (fun x => LR.wsum E (fun e => e = x)) g) (ws : List Str)
    (hnd : ws.Nodup) (w : Str) (hw : w ∈ ws) :
    Dict.get? (claim g [] (sorted longerLe ws)).2 w =
      some (LR.wsum E (fun e => HasEdge g w e ∧ ∀ w' ∈ ws, HasEdge g w' e → w'.length ≤ w.length)) := by
  have hperm := sorted_perm longerLe ws
  have hm : w ∈ sorted longerLe ws := mem_sorted.2 hw
  obtain ⟨pre, post, hsplit⟩ := List.append_of_mem hm
  have hsn : (sorted longerLe ws).Nodup := hperm.nodup_iff.2 hnd
  have hpw := pairwise_sorted longerLe_totalPre ws
  rw [hsplit] at hsn hpw
  obtain ⟨rest, hamt⟩ := LR.claimAll_amount (fun _ _ => true) hc pre w post
  rw [claim_eq]
  apply get?_foldl_set_nodup
  · rw [LR.claimAll_words, hsplit]; exact hsn
  · rw [hsplit, hamt]
    apply List.mem_append_right
    have : LR.wsum E (fun e => HasEdge g w e ∧ ∀ w' ∈ ws, HasEdge g w' e → w'.length ≤ w.length) =
        LR.wsum E (fun e => ¬ LR.ClaimedBy (fun w r => (fun _ _ => true : Str → Str → Bool) w r = true) g pre e ∧
          LR.ClaimedBy (fun w r => (fun _ _ => true : Str → Str → Bool) w r = true) g [w] e) := by
      apply LR.wsum_congr
      rintro ⟨e, n⟩ _
      show (HasEdge g w e ∧ _) ↔ _
      have hone : LR.ClaimedBy (fun w r => (fun _ _ => true : Str → Str → Bool) w r = true) g [w] e ↔ HasEdge g w e := by
        unfold LR.ClaimedBy HasEdge
        constructor
        · rintro ⟨w', hw', r, _, hs, he⟩
          have : w' = w := by simpa using hw'
          subst this; exact ⟨r, hs, he⟩
        · rintro ⟨r, hs, he⟩; exact ⟨w, by simp, r, rfl, hs, he⟩
      show _ ↔ ¬ LR.ClaimedBy _ g pre e ∧ LR.ClaimedBy _ g [w] e
      rw [hone]
      constructor
      · rintro ⟨h1, h2⟩
        refine ⟨?_, h1⟩
        rintro ⟨w', hw', r', _, hs', he'⟩
        have hmem : w' ∈ ws := mem_sorted.1 (by rw [hsplit]; exact List.mem_append_left _ hw')
        have hle := h2 w' hmem ⟨r', hs', he'⟩
        have hge : w.length ≤ w'.length := by
          have := (List.pairwise_append.1 hpw).2.2 w' hw' w (by simp)
          simpa [longerLe] using this
        obtain ⟨r, _, he⟩ := h1
        have : w = w' := by
          have e1 : w ++ r = w' ++ r' := he.trans he'.symm
          exact (List.append_inj e1 (by omega)).1
        subst this
        have := (List.nodup_append.1 hsn).2.2 w hw' w (by simp)
        exact this rfl
      · rintro ⟨h1, h2⟩
        refine ⟨h2, ?_⟩
        intro w' hw' ⟨r', hs', he'⟩
        have hmem : w' ∈ pre ++ w :: post := by rw [← hsplit]; exact mem_sorted.2 hw'
        rcases List.mem_append.1 hmem with hx | hx
        · exact absurd ⟨w', hx, r', rfl, hs', he'⟩ h1
        · rcases List.mem_cons.1 hx with hx | hx
          · rw [hx]
          · have := (List.pairwise_cons.1 (List.pairwise_append.1 hpw).2.1).1 w' hx
            simpa [longerLe] using this
    rw [this]
    exact List.mem_cons_self

end V1
