import Verif.Model.NewsNoun
import Verif.Spec.NewsNoun
import Mathlib.Tactic.Linarith
import Mathlib.Tactic.Ring
import Mathlib.Data.List.Nodup
import Mathlib.Data.List.Dedup
import Mathlib.Algebra.BigOperators.Group.List.Basic
namespace NewsNoun
open Py Nested NewsNounSpec

/-- the corpus of the specification -/
def corpus (p : Params) (sents : List Str) : Corpus := ⟨sents.flatMap splitWs, p.maxLeft, p.maxRight⟩

theorem mem_cuts (p : Params) (w l r : Str) :
    (l, r) ∈ cuts p w ↔ w = l ++ r ∧ l ≠ [] ∧ (l.length : Int) ≤ p.maxLeft ∧ (w.length : Int) ≤ l.length + p.maxRight := by
  unfold cuts
  simp only [List.mem_map, List.mem_filter, List.mem_range'_1, decide_eq_true_eq, Prod.mk.injEq, not_lt]
  constructor
  · rintro ⟨e, ⟨⟨h1, h2⟩, h3⟩, rfl, rfl⟩
    have hlen : (w.take e).length = e := by simp; omega
    refine ⟨(List.take_append_drop e w).symm, ?_, ?_, ?_⟩
    · intro h; rw [h] at hlen; simp at hlen; omega
    · rw [hlen]; omega
    · rw [hlen]; omega
  · rintro ⟨rfl, h1, h2, h3⟩
    have : 0 < l.length := List.length_pos_iff.2 h1
    have h4 : ((l ++ r).length : Int) = l.length + r.length := by simp
    refine ⟨l.length, ⟨⟨by omega, by omega⟩, by omega⟩, by simp, by simp⟩

theorem nodup_cuts (p : Params) (w : Str) : (cuts p w).Nodup := by
  unfold cuts
  apply List.Nodup.map_on _ ((List.nodup_range' (step := 1)).filter _)
  intro a ha b hb h
  simp only [List.mem_filter, List.mem_range'_1] at ha hb
  have h1 := congrArg (fun q : Str × Str => q.1.length) h
  simp only [List.length_take] at h1
  omega

theorem filter_cuts (p : Params) (w a b : Str) :
    ((cuts p w).filter (fun lr => decide (lr.1 = a ∧ lr.2 = b))) = if (a, b) ∈ cuts p w then [(a, b)] else [] := by
  have he : (fun lr : Str × Str => decide (lr.1 = a ∧ lr.2 = b)) = (fun lr => lr == (a, b)) := by
    funext lr; obtain ⟨x, y⟩ := lr; rw [Bool.eq_iff_iff]; simp
  rw [he, List.filter_beq]
  split
  · rename_i h; rw [List.count_eq_one_of_mem (nodup_cuts p w) h]; rfl
  · rename_i h; rw [List.count_eq_zero_of_not_mem h]; rfl

theorem getD_counter' (xs : List Str) (k : Str) : Dict.getD (Dict.counter xs) k 0 = xs.countP (fun x => decide (x = k)) := by
  rw [Dict.getD_counter]; unfold List.count; apply List.countP_congr; simp

theorem get?_counter' (xs : List Str) (k : Str) :
    Dict.get? (Dict.counter xs) k = if k ∈ xs then some (xs.count k) else none := by
  rw [Dict.get?_counter]
  congr 2
  unfold List.count; apply List.countP_congr; simp

/-- the sum of a table's entries at one key -/
theorem sum_key (d : Dict Str Nat) (hd : Dict.WF d) (k : Str) :
    ((d.map (fun e => if e.1 = k then (e.2 : Int) else 0)).sum) = ((Dict.getD d k 0 : Nat) : Int) := by
  induction d with
  | nil => rfl
  | cons e d ih =>
    obtain ⟨a, n⟩ := e
    have hd' : Dict.WF d := by
      simp only [Dict.WF, Dict.keys, List.map_cons, List.nodup_cons] at hd; exact hd.2
    have hn : a ∉ Dict.keys d := by
      simp only [Dict.WF, Dict.keys, List.map_cons, List.nodup_cons] at hd; exact hd.1
    rw [List.map_cons, List.sum_cons, ih hd']
    simp only [Dict.getD, Dict.get?_cons]
    by_cases h : a = k
    · subst h
      rw [(Dict.get?_eq_none_iff d a).2 hn]; simp
    · simp [h]

theorem sum_entries (p : Params) (d : Dict Str Nat) (a b : Str) :
    (((entries p d).filter (fun x => decide (x.1 = a ∧ x.2.1 = b))).map (fun x => x.2.2)).sum =
      (d.map (fun e => if (a, b) ∈ cuts p e.1 then (e.2 : Int) else 0)).sum := by
  unfold entries
  induction d with
  | nil => rfl
  | cons e d ih =>
    rw [List.flatMap_cons, List.filter_append, List.map_append, List.sum_append, ih, List.map_cons, List.sum_cons]
    congr 1
    rw [List.filter_map, List.map_map]
    have := filter_cuts p e.1 a b
    simp only [Function.comp_def] at this ⊢
    rw [this]
    split <;> simp

theorem getD_lr (p : Params) (sents : List Str) (l r : Str) :
    (get2 (buildLR (entries p (countEojeols p sents))) l r).getD 0 = (((rests (corpus p sents) l).count r : Nat) : Int) := by
  unfold buildLR
  rw [getD_get2_foldl_nadd _ (fun e : Str × Str × Int => e.1) (fun e => e.2.1) (fun e => e.2.2)]
  have h0 : (get2 ([] : Nested Str) l r).getD 0 = 0 := rfl
  rw [h0, sum_entries, Int.zero_add]
  by_cases hc : (l, r) ∈ cuts p (l ++ r)
  · have hc' := (mem_cuts p _ l r).1 hc
    have he : (fun e : Str × Nat => if (l, r) ∈ cuts p e.1 then (e.2 : Int) else 0) = (fun e => if e.1 = l ++ r then (e.2 : Int) else 0) := by
      funext e
      by_cases h : e.1 = l ++ r
      · rw [h, if_pos hc, if_pos rfl]
      · rw [if_neg h, if_neg]
        intro hm; exact h ((mem_cuts p _ l r).1 hm).1
    rw [he, countEojeols, sum_key _ (Dict.wf_counter _), getD_counter']
    congr 1
    rw [rests, List.count_eq_countP, List.countP_map, List.countP_filter, List.countP_filter]
    · show List.countP _ (corpus p sents).words = _
      apply List.countP_congr
      intro w _
      simp only [beq_iff_eq, Function.comp, Bool.and_eq_true, decide_eq_true_eq]
      constructor
      · rintro ⟨rfl, _⟩
        exact ⟨by simp, List.prefix_append _ _, hc'.2.1, hc'.2.2.1, hc'.2.2.2⟩
      · rintro ⟨h1, ⟨x, hx⟩, _⟩
        rw [← hx] at h1 ⊢
        simp only [List.drop_left] at h1
        subst h1
        exact ⟨rfl, by omega⟩
  · have hz : (fun e : Str × Nat => if (l, r) ∈ cuts p e.1 then (e.2 : Int) else 0) = fun _ => 0 := by
      funext e
      rw [if_neg]
      intro hm
      have := ((mem_cuts p _ l r).1 hm).1
      rw [this] at hm; exact hc hm
    rw [hz]
    have : (rests (corpus p sents) l).count r = 0 := by
      rw [List.count_eq_zero]
      intro hm
      simp only [rests, List.mem_map, List.mem_filter, decide_eq_true_eq] at hm
      obtain ⟨w, ⟨hw, ⟨x, hx⟩, h2, h3, h4⟩, h5⟩ := hm
      apply hc
      rw [← hx] at h5 h4
      simp at h5
      subst h5
      exact (mem_cuts p _ l x).2 ⟨rfl, h2, h3, h4⟩
    rw [this]; simp

theorem isSome_lr (p : Params) (sents : List Str) (l r : Str) :
    (get2 (buildLR (entries p (countEojeols p sents))) l r).isSome = true ↔ r ∈ rests (corpus p sents) l := by
  unfold buildLR
  rw [isSome_get2_foldl_nadd _ (fun e : Str × Str × Int => e.1) (fun e => e.2.1) (fun e => e.2.2)]
  simp only [get2, Dict.get?_nil, Option.bind_none, Option.isSome_none, Bool.false_eq_true, false_or, entries, List.mem_flatMap, List.mem_map,
    rests, List.mem_filter, decide_eq_true_eq, countEojeols]
  constructor
  · rintro ⟨x, ⟨⟨w, n⟩, hw, ⟨a, b⟩, hab, rfl⟩, rfl, rfl⟩
    have hk := (Dict.mem_keys_counter _ w).1 (List.mem_map.2 ⟨_, hw, rfl⟩)
    have hm := (mem_cuts p w a b).1 hab
    refine ⟨w, ⟨(List.mem_filter.1 hk).1, ⟨b, hm.1.symm⟩, hm.2⟩, ?_⟩
    rw [hm.1]; simp
  · rintro ⟨w, ⟨hw, ⟨x, hx⟩, h2, h3, h4⟩, h5⟩
    have hr : x = r := by rw [← hx] at h5; simpa using h5
    subst hr
    have hmem : w ∈ (sents.flatMap splitWs).filter (fun w => decide ((w.length : Int) ≤ p.maxLeft + p.maxRight)) := by
      refine List.mem_filter.2 ⟨hw, ?_⟩
      simp only [corpus] at h3 h4
      simp only [decide_eq_true_eq]; omega
    obtain ⟨⟨w', n⟩, he, rfl⟩ := List.mem_map.1 ((Dict.mem_keys_counter _ w).2 hmem)
    exact ⟨_, ⟨_, he, (l, x), (mem_cuts p _ l x).2 ⟨hx.symm, h2, h3, h4⟩, rfl⟩, rfl, rfl⟩

theorem wf2_lr (es : List (Str × Str × Int)) : WF2 (buildLR es) :=
  WF2.foldl_nadd es (fun e => e.1) (fun e => e.2.1) (fun e => e.2.2) wf2_nil

/-- how often each rest occurs, as a table -/
def restCounts (c : Corpus) (l : Str) : Dict Str Int := (Dict.counter (rests c l)).map (fun e => (e.1, (e.2 : Int)))

theorem get?_restCounts (c : Corpus) (l r : Str) :
    Dict.get? (restCounts c l) r = if r ∈ rests c l then some (((rests c l).count r : Nat) : Int) else none := by
  have h : ∀ (d : Dict Str Nat), Dict.get? (d.map (fun e => (e.1, (e.2 : Int)))) r = (Dict.get? d r).map (fun n : Nat => (n : Int)) := by
    intro d
    induction d with
    | nil => rfl
    | cons e d ih => obtain ⟨a, n⟩ := e; rw [List.map_cons, Dict.get?_cons, Dict.get?_cons, ih]; split <;> rfl
  rw [restCounts, h, get?_counter']; split <;> rfl

theorem wf_restCounts (c : Corpus) (l : Str) : Dict.WF (restCounts c l) := by
  have := Dict.wf_counter (rests c l)
  unfold Dict.WF restCounts at *
  simpa [Dict.keys, List.map_map, Function.comp_def] using this

theorem get?_row (p : Params) (sents : List Str) (l r : Str) :
    Dict.get? (row (buildLR (entries p (countEojeols p sents))) l) r =
      if r ∈ rests (corpus p sents) l then some (((rests (corpus p sents) l).count r : Nat) : Int) else none := by
  have h1 := getD_lr p sents l r
  have h2 := isSome_lr p sents l r
  rw [get2_eq_row] at h1 h2
  cases h : Dict.get? (row (buildLR (entries p (countEojeols p sents))) l) r with
  | none =>
    rw [h] at h2; rw [if_neg]; intro hm; have := h2.2 hm; simp at this
  | some v =>
    rw [h] at h1 h2
    rw [if_pos (h2.1 rfl)]; simp at h1; rw [h1]

theorem row_perm (p : Params) (sents : List Str) (l : Str) :
    (row (buildLR (entries p (countEojeols p sents))) l).Perm (restCounts (corpus p sents) l) :=
  Dict.perm_of_get? ((wf2_lr _).row_wf l) (wf_restCounts _ l) (fun r => by rw [get?_row, get?_restCounts])

/-- a sum over a counter is a sum over the counted list -/
theorem sum_add {M : Type} [CommSemiring M] (f : Str → M) (d : Dict Str Nat) (k : Str) :
    ((Dict.add d k 1).map (fun e => (e.2 : M) * f e.1)).sum = (d.map (fun e => (e.2 : M) * f e.1)).sum + f k := by
  induction d with
  | nil => simp [Dict.add, Dict.set, Dict.getD]
  | cons e d ih =>
    obtain ⟨a, n⟩ := e
    by_cases h : a = k
    · subst h
      simp only [Dict.add, Dict.set, Dict.getD, Dict.get?_cons, if_true, Option.getD_some, List.map_cons, List.sum_cons]
      push_cast; ring
    · have hh : Dict.add ((a, n) :: d) k 1 = (a, n) :: Dict.add d k 1 := by
        simp only [Dict.add, Dict.set, Dict.getD, Dict.get?_cons, if_neg h]
      rw [hh, List.map_cons, List.map_cons, List.sum_cons, List.sum_cons, ih, add_assoc]

theorem sum_counter {M : Type} [CommSemiring M] (f : Str → M) (xs : List Str) :
    ((Dict.counter xs).map (fun e => (e.2 : M) * f e.1)).sum = (xs.map f).sum := by
  have h : ∀ (ys : List Str) (d : Dict Str Nat),
      ((ys.foldl (fun d x => Dict.add d x 1) d).map (fun e => (e.2 : M) * f e.1)).sum
        = (d.map (fun e => (e.2 : M) * f e.1)).sum + (ys.map f).sum := by
    intro ys
    induction ys with
    | nil => intro d; simp
    | cons y ys ih => intro d; rw [List.foldl_cons, ih, sum_add, List.map_cons, List.sum_cons, add_assoc]
  have := h xs []
  simpa [Dict.counter] using this

/-- a row sum is a sum over the occurrences -/
theorem sum_row {M : Type} [CommRing M] (p : Params) (sents : List Str) (l : Str) (f : Str → M) :
    ((row (buildLR (entries p (countEojeols p sents))) l).map (fun e => (e.2 : M) * f e.1)).sum
      = ((rests (corpus p sents) l).map f).sum := by
  rw [((row_perm p sents l).map _).sum_eq, ← sum_counter, restCounts, List.map_map]
  congr 1
  apply List.map_congr_left
  intro e _; simp

theorem sum_row_filter (p : Params) (sents : List Str) (l : Str) (P : Str → Bool) :
    (((row (buildLR (entries p (countEojeols p sents))) l).filter (fun e => P e.1)).map (·.2)).sum
      = (((rests (corpus p sents) l).countP P : Nat) : Int) := by
  have h1 : ∀ (d : Dict Str Int), ((d.filter (fun e => P e.1)).map (·.2)).sum = (d.map (fun e => e.2 * (if P e.1 then 1 else 0 : Int))).sum := by
    intro d
    induction d with
    | nil => rfl
    | cons e d ih =>
      rw [List.filter_cons, List.map_cons, List.sum_cons, ← ih]
      split <;> simp_all
  have h2 : ∀ xs : List Str, (xs.map (fun x => (if P x then 1 else 0 : Int))).sum = ((xs.countP P : Nat) : Int) := by
    intro xs
    induction xs with
    | nil => rfl
    | cons x xs ih => rw [List.map_cons, List.sum_cons, ih, List.countP_cons]; split <;> simp_all; omega
  rw [h1, ← h2]
  exact sum_row (M := Int) p sents l (fun x => if P x then 1 else 0)

theorem sum_row_all (p : Params) (sents : List Str) (l : Str) :
    ((row (buildLR (entries p (countEojeols p sents))) l).map (·.2)).sum = ((freq (corpus p sents) l : Nat) : Int) := by
  have := sum_row_filter p sents l (fun _ => true)
  simpa [freq] using this

/-- what training computes -/
def trained (p : Params) (sents : List Str) : Trained :=
  let g := buildLR (entries p (countEojeols p sents))
  let h := buildRL (entries p (countEojeols p sents))
  { lrgraph := g, rlgraph := h, eojeols := countEojeols p sents, lcount := sums g, rcount := sums h }

theorem train_ok (p : Params) (s : State) (sents : List Str) (h : sents ≠ []) :
    train p s sents = .ok { s with trained := some (trained p sents) } := by
  unfold train; rw [if_neg h]; rfl

theorem get?_sums (g : Nested Str) (l : Str) : Dict.get? (sums g) l = (Dict.get? g l).map Dict.sumI := by
  unfold sums
  induction g with
  | nil => rfl
  | cons e g ih => obtain ⟨a, t⟩ := e; rw [List.map_cons, Dict.get?_cons, Dict.get?_cons, ih]; split <;> rfl

theorem getD_sums (g : Nested Str) (l : Str) : Dict.getD (sums g) l 0 = ((row g l).map (·.2)).sum := by
  unfold Dict.getD row
  rw [get?_sums]
  cases Dict.get? g l <;> rfl

theorem row_eq_nil {g : Nested Str} (h : WF2 g) (l : Str) : row g l = [] ↔ Dict.get? g l = none := by
  unfold row
  cases hg : Dict.get? g l with
  | none => simp
  | some t => simpa using h.nonempty l t (Dict.mem_of_get? hg)

section
variable (p : Params) (sents : List Str)
local notation "T" => trained p sents
local notation "C" => corpus p sents

theorem lFrequency_eq (l : Str) : lFrequency T l = ((freq C l : Nat) : Int) := by
  unfold lFrequency trained
  rw [getD_sums, sum_row_all]

theorem row_nil_iff (l : Str) : row (trained p sents).lrgraph l = [] ↔ freq C l = 0 := by
  have h := row_perm p sents l
  constructor
  · intro h0
    have h1 := sum_row_all p sents l
    unfold trained at h0
    simp only at h0
    rw [h0] at h1
    simp at h1; omega
  · intro h0
    have : rests C l = [] := List.eq_nil_of_length_eq_zero h0
    have h2 : restCounts C l = [] := by unfold restCounts; rw [this]; rfl
    rw [h2] at h
    exact h.eq_nil

theorem get?_lcount (l : Str) :
    Dict.get? (trained p sents).lcount l = if freq C l = 0 then none else some ((freq C l : Nat) : Int) := by
  have h1 := lFrequency_eq p sents l
  have h2 := row_nil_iff p sents l
  unfold lFrequency Dict.getD at h1
  have h3 : row (trained p sents).lrgraph l = [] ↔ Dict.get? (trained p sents).lrgraph l = none := row_eq_nil (wf2_lr _) l
  have h4 : Dict.get? (trained p sents).lcount l = (Dict.get? (trained p sents).lrgraph l).map Dict.sumI := get?_sums _ l
  cases hg : Dict.get? (trained p sents).lrgraph l with
  | none =>
    rw [hg] at h3 h4
    rw [h4, if_pos (h2.1 (h3.2 rfl))]; rfl
  | some t =>
    rw [hg] at h3 h4
    rw [h4] at h1 ⊢
    rw [if_neg (fun h => by have := h3.1 (h2.2 h); cases this)]
    simpa using h1

theorem getD_eojeols (l : Str) :
    Dict.getD (trained p sents).eojeols l 0 =
      ((C).words.filter (fun w => decide ((w.length : Int) ≤ p.maxLeft + p.maxRight))).countP (fun w => decide (w = l)) := by
  show Dict.getD (countEojeols p sents) l 0 = _
  rw [countEojeols, getD_counter']; rfl

/-- a left part that occurs stands alone as often as its eojeol was counted -/
theorem getD_eojeols_rests (l : Str) (h : freq C l ≠ 0) :
    Dict.getD (trained p sents).eojeols l 0 = (rests C l).countP (fun r => decide (r = [])) := by
  rw [getD_eojeols, rests, List.countP_map, List.countP_filter, List.countP_filter]
  apply List.countP_congr
  intro w _
  simp only [Bool.and_eq_true, decide_eq_true_eq, Function.comp]
  -- some word counts
  have : ∃ w0, Counts C l w0 := by
    unfold freq at h
    have hne : rests C l ≠ [] := fun h0 => h (by rw [h0]; rfl)
    obtain ⟨r, hr⟩ := List.exists_mem_of_ne_nil _ hne
    simp only [rests, List.mem_map, List.mem_filter, decide_eq_true_eq] at hr
    obtain ⟨w0, ⟨_, h0⟩, _⟩ := hr
    exact ⟨w0, h0⟩
  obtain ⟨w0, ⟨x0, hx0⟩, hl, hL, hR⟩ := this
  have hlen : w0.length = l.length + x0.length := by rw [← hx0]; simp
  simp only [corpus] at hL hR
  constructor
  · rintro ⟨rfl, _⟩
    refine ⟨by simp, List.prefix_refl _, hl, hL, ?_⟩
    simp only [corpus]; omega
  · rintro ⟨h1, ⟨x, hx⟩, _⟩
    rw [← hx] at h1
    simp only [List.drop_left] at h1
    subst h1
    simp at hx
    subst hx
    exact ⟨rfl, by omega⟩

end

theorem tally_eq (rs : Dict Str Rat) (r : List (Str × Int)) (a : Acc) :
    r.foldl (fun a f => match Dict.get? rs f.1 with
    | none => { a with total := a.total + f.2 }
    | some c => { norm := a.norm + f.2, score := a.score + (f.2 : Rat) * c, total := a.total + f.2,
                  nPositive := a.nPositive + (if c > 0 then 1 else 0), nFeature := a.nFeature + 1 }) a =
    { norm := a.norm + ((r.filter (fun f => Dict.has rs f.1)).map (·.2)).sum
      score := a.score + (r.map (fun f => (f.2 : Rat) * Dict.getD rs f.1 0)).sum
      total := a.total + (r.map (·.2)).sum
      nPositive := a.nPositive + (r.filter (fun f => decide (0 < Dict.getD rs f.1 0))).length
      nFeature := a.nFeature + (r.filter (fun f => Dict.has rs f.1)).length } := by
  induction r generalizing a with
  | nil => simp
  | cons f r ih =>
    rw [List.foldl_cons, ih]
    cases h : Dict.get? rs f.1 with
    | none => simp [h, Dict.getD, Dict.has, add_assoc]
    | some c =>
      by_cases hc : 0 < c
      · simp [h, Dict.getD, Dict.has, hc, add_assoc, add_comm, add_left_comm]
      · simp [h, Dict.getD, Dict.has, hc, add_assoc, add_comm, add_left_comm]

theorem countP_eq_num (c : Corpus) (l : Str) (b : Str → Bool) (P : Str → Prop) (h : ∀ r, b r = true ↔ P r) :
    (rests c l).countP b = num c l P := by
  unfold num
  apply List.countP_congr
  intro r _
  simp [h r]

theorem length_seen (rs : Dict Str Rat) (c : Corpus) (l : Str) :
    (seen (Dict.get? rs) c l).length = (rests c l).countP (fun r => Dict.has rs r) := by
  unfold seen
  induction rests c l with
  | nil => rfl
  | cons r xs ih =>
    rw [List.filterMap_cons, List.countP_cons, ← ih]
    cases h : Dict.get? rs r <;> simp [h]

theorem sum_seen (rs : Dict Str Rat) (c : Corpus) (l : Str) :
    (seen (Dict.get? rs) c l).sum = ((rests c l).map (fun r => Dict.getD rs r 0)).sum := by
  unfold seen
  induction rests c l with
  | nil => rfl
  | cons r xs ih =>
    rw [List.filterMap_cons, List.map_cons, List.sum_cons, ← ih]
    cases h : Dict.get? rs r <;> simp [h, Dict.getD]

theorem length_row_filter (p : Params) (sents : List Str) (l : Str) (P : Str → Bool) :
    ((row (buildLR (entries p (countEojeols p sents))) l).filter (fun e => P e.1)).length = different (corpus p sents) l P := by
  rw [((row_perm p sents l).filter _).length_eq]
  unfold different restCounts
  have h1 : ((Dict.counter (rests (corpus p sents) l)).map (fun e : Str × Nat => (e.1, (e.2 : Int)))).filter (fun e => P e.1) =
      ((Dict.counter (rests (corpus p sents) l)).filter (fun e => P e.1)).map (fun e => (e.1, (e.2 : Int))) := by
    rw [List.filter_map]; rfl
  have h2 : ((Dict.counter (rests (corpus p sents) l)).filter (fun e => P e.1)).length =
      ((Dict.keys (Dict.counter (rests (corpus p sents) l))).filter P).length := by
    unfold Dict.keys; rw [List.filter_map, List.length_map]; rfl
  rw [h1, List.length_map, h2]
  apply List.Perm.length_eq
  apply (List.perm_ext_iff_of_nodup (List.Nodup.filter _ (Dict.wf_counter _)) (List.nodup_dedup _)).2
  intro r
  rw [List.mem_dedup, List.mem_filter, List.mem_filter, Dict.mem_keys_counter]

/-- the prediction, from the occurrences -/
theorem predict_eq (p : Params) (sents : List Str) (rs : Dict Str Rat) (l : Str) :
    predict rs (trained p sents) l =
      { score := mean (Dict.get? rs) (corpus p sents) l
        frequency := ((freq (corpus p sents) l : Nat) : Int)
        featureProportion := ((seen (Dict.get? rs) (corpus p sents) l).length : Rat) / (num (corpus p sents) l (· ≠ []) : Rat)
        eojeolProportion := share (corpus p sents) l (· = [])
        nPositiveFeature := different (corpus p sents) l (fun r => decide (0 < Dict.getD rs r 0))
        uniquePositiveFeatureProportion :=
          (different (corpus p sents) l (fun r => decide (0 < Dict.getD rs r 0)) : Rat) / (different (corpus p sents) l (fun r => Dict.has rs r) : Rat) } := by
  have ht : tally rs (row (trained p sents).lrgraph l) =
      { norm := ((seen (Dict.get? rs) (corpus p sents) l).length : Nat)
        score := (seen (Dict.get? rs) (corpus p sents) l).sum
        total := ((freq (corpus p sents) l : Nat) : Int)
        nPositive := different (corpus p sents) l (fun r => decide (0 < Dict.getD rs r 0))
        nFeature := different (corpus p sents) l (fun r => Dict.has rs r) } := by
    unfold tally
    refine (tally_eq rs _ {}).trans ?_
    have e1 := sum_row_filter p sents l (fun r => Dict.has rs r)
    have e2 := sum_row (M := Rat) p sents l (fun r => Dict.getD rs r 0)
    have e3 := sum_row_all p sents l
    have e4 := length_row_filter p sents l (fun r => decide (0 < Dict.getD rs r 0))
    have e5 := length_row_filter p sents l (fun r => Dict.has rs r)
    unfold trained
    simp only
    rw [e1, e2, e3, e4, e5, length_seen, sum_seen]
    simp
  have hlen : (rests (corpus p sents) l).countP (fun r => decide (r = [])) + num (corpus p sents) l (· ≠ []) = freq (corpus p sents) l := by
    rw [← countP_eq_num (corpus p sents) l (fun r => !decide (r = [])) (· ≠ []) (by intro r; simp)]
    unfold freq
    rw [List.length_eq_countP_add_countP (fun r => decide (r = []))]
    congr 1
    apply List.countP_congr; intro r _; simp
  have hsh : share (corpus p sents) l (· = []) = ((rests (corpus p sents) l).countP (fun r => decide (r = [])) : Rat) / (freq (corpus p sents) l : Rat) := by
    unfold share
    rw [← countP_eq_num (corpus p sents) l (fun r => decide (r = [])) (· = []) (by intro r; simp)]
  unfold predict
  rw [ht]
  simp only
  by_cases hz : freq (corpus p sents) l = 0
  · have hn : rests (corpus p sents) l = [] := List.eq_nil_of_length_eq_zero hz
    have hs : seen (Dict.get? rs) (corpus p sents) l = [] := by unfold seen; rw [hn]; rfl
    have hnum : num (corpus p sents) l (· ≠ []) = 0 := by unfold num; rw [hn]; rfl
    have hd : ∀ P, different (corpus p sents) l P = 0 := by intro P; unfold different; rw [hn]; rfl
    rw [hsh, hz, hs, hnum, hd, hd]
    unfold mean
    rw [hs]
    simp
  · rw [getD_eojeols_rests p sents l hz, hsh]
    congr 1
    · unfold mean
      by_cases h : (seen (Dict.get? rs) (corpus p sents) l).length = 0
      · simp [h]
      · rw [if_pos (by exact_mod_cast h)]; simp
    · have he : (((freq (corpus p sents) l : Nat) : Int) - ((rests (corpus p sents) l).countP (fun r => decide (r = [])) : Nat)) = (num (corpus p sents) l (· ≠ []) : Nat) := by omega
      rw [he]
      by_cases h : num (corpus p sents) l (· ≠ []) = 0
      · simp [h]
      · rw [if_pos (by omega)]; simp
    · rw [if_pos (by omega)]; simp
    · by_cases h : different (corpus p sents) l (fun r => Dict.has rs r) = 0
      · simp [h]
      · rw [if_neg (by omega)]

/-! ### the right-to-left graph -/

theorem get2_rl (p : Params) (d : Dict Str Nat) (l r : Str) :
    get2 (buildRL (entries p d)) r l = if r = [] then none else get2 (buildLR (entries p d)) l r := by
  have h1 := getD_get2_foldl_nadd ((entries p d).filter (fun e => decide (e.2.1 ≠ []))) (fun e : Str × Str × Int => e.2.1) (fun e => e.1) (fun e => e.2.2) [] r l
  have h2 := isSome_get2_foldl_nadd ((entries p d).filter (fun e => decide (e.2.1 ≠ []))) (fun e : Str × Str × Int => e.2.1) (fun e => e.1) (fun e => e.2.2) [] r l
  have h3 := getD_get2_foldl_nadd (entries p d) (fun e : Str × Str × Int => e.1) (fun e => e.2.1) (fun e => e.2.2) [] l r
  have h4 := isSome_get2_foldl_nadd (entries p d) (fun e : Str × Str × Int => e.1) (fun e => e.2.1) (fun e => e.2.2) [] l r
  have h0 : (get2 ([] : Nested Str) r l) = none := rfl
  have h0' : (get2 ([] : Nested Str) l r) = none := rfl
  rw [h0] at h1 h2
  rw [h0'] at h3 h4
  simp only [Option.getD_none, Int.zero_add, Option.isSome_none, Bool.false_eq_true, false_or] at h1 h2 h3 h4
  change (get2 (buildRL (entries p d)) r l).getD 0 = _ at h1
  change (get2 (buildRL (entries p d)) r l).isSome = true ↔ _ at h2
  change (get2 (buildLR (entries p d)) l r).getD 0 = _ at h3
  change (get2 (buildLR (entries p d)) l r).isSome = true ↔ _ at h4
  by_cases hr : r = []
  · rw [if_pos hr]
    cases hg : get2 (buildRL (entries p d)) r l with
    | none => rfl
    | some v =>
      rw [hg] at h2
      obtain ⟨x, hx, h5, _⟩ := h2.1 rfl
      have := (List.mem_filter.1 hx).2
      simp only [decide_eq_true_eq] at this
      exact absurd (h5.trans hr) this
  · rw [if_neg hr]
    have he : ((entries p d).filter (fun e => decide (e.2.1 ≠ []))).filter (fun x => decide (x.2.1 = r ∧ x.1 = l)) =
        (entries p d).filter (fun x => decide (x.1 = l ∧ x.2.1 = r)) := by
      rw [List.filter_filter]
      apply List.filter_congr
      intro x _
      rw [Bool.eq_iff_iff]
      simp only [Bool.and_eq_true, decide_eq_true_eq]
      constructor
      · rintro ⟨⟨h5, h6⟩, _⟩; exact ⟨h6, h5⟩
      · rintro ⟨h5, h6⟩; exact ⟨⟨h6, h5⟩, h6 ▸ hr⟩
    rw [he, ← h3] at h1
    have hi : (get2 (buildRL (entries p d)) r l).isSome = true ↔ (get2 (buildLR (entries p d)) l r).isSome = true := by
      rw [h2, h4]
      constructor
      · rintro ⟨x, hx, h5, h6⟩; exact ⟨x, (List.mem_filter.1 hx).1, h6, h5⟩
      · rintro ⟨x, hx, h5, h6⟩
        refine ⟨x, List.mem_filter.2 ⟨hx, ?_⟩, h6, h5⟩
        simp only [decide_eq_true_eq]; rw [h6]; exact hr
    cases ha : get2 (buildRL (entries p d)) r l <;> cases hb : get2 (buildLR (entries p d)) l r <;> rw [ha, hb] at h1 hi <;> simp_all

theorem wf2_rl (es : List (Str × Str × Int)) : WF2 (buildRL es) :=
  WF2.foldl_nadd (es.filter (fun e : Str × Str × Int => decide (e.2.1 ≠ []))) (fun e => e.2.1) (fun e => e.1) (fun e => e.2.2) wf2_nil

theorem count_befores (c : Corpus) (l r : Str) (hr : r ≠ []) : (befores c r).count l = (rests c l).count r := by
  unfold befores rests
  rw [List.count_eq_countP, List.count_eq_countP, List.countP_map, List.countP_map, List.countP_filter, List.countP_filter]
  apply List.countP_congr
  intro w _
  simp only [Function.comp, Bool.and_eq_true, beq_iff_eq, decide_eq_true_eq]
  constructor
  · rintro ⟨h1, h2, ⟨x, hx⟩, h4⟩
    rw [h1] at h4
    refine ⟨?_, h4⟩
    rw [← hx] at h1 ⊢
    simp at h1; subst h1; simp
  · rintro ⟨h1, h2⟩
    obtain ⟨⟨x, hx⟩, _⟩ := id h2
    rw [← hx] at h1
    simp at h1
    subst h1
    have ht : w.take (w.length - x.length) = l := by rw [← hx]; simp
    rw [ht]
    exact ⟨rfl, hr, ⟨l, hx⟩, h2⟩

theorem get?_row_rl (p : Params) (sents : List Str) (l r : Str) :
    Dict.get? (row (buildRL (entries p (countEojeols p sents))) r) l =
      if l ∈ befores (corpus p sents) r then some (((befores (corpus p sents) r).count l : Nat) : Int) else none := by
  rw [← get2_eq_row, get2_rl, get2_eq_row, get?_row]
  by_cases hr : r = []
  · rw [if_pos hr, if_neg]
    simp [befores, hr]
  · rw [if_neg hr, count_befores _ _ _ hr]
    have : r ∈ rests (corpus p sents) l ↔ l ∈ befores (corpus p sents) r := by
      rw [← List.count_pos_iff, ← List.count_pos_iff, count_befores _ _ _ hr]
    by_cases h : r ∈ rests (corpus p sents) l
    · rw [if_pos h, if_pos (this.1 h)]
    · rw [if_neg h, if_neg (fun h' => h (this.2 h'))]

theorem getD_rcount (p : Params) (sents : List Str) (r : Str) :
    Dict.getD (trained p sents).rcount r 0 = ((befores (corpus p sents) r).length : Nat) := by
  show Dict.getD (sums (buildRL (entries p (countEojeols p sents)))) r 0 = _
  rw [getD_sums]
  have hp : (row (buildRL (entries p (countEojeols p sents))) r).Perm
      ((Dict.counter (befores (corpus p sents) r)).map (fun e => (e.1, (e.2 : Int)))) := by
    refine Dict.perm_of_get? ((wf2_rl _).row_wf r) ?_ ?_
    · have := Dict.wf_counter (befores (corpus p sents) r)
      unfold Dict.WF at *
      simpa [Dict.keys, List.map_map, Function.comp_def] using this
    · intro l
      have h : ∀ (d : Dict Str Nat), Dict.get? (d.map (fun e => (e.1, (e.2 : Int)))) l = (Dict.get? d l).map (fun n : Nat => (n : Int)) := by
        intro d
        induction d with
        | nil => rfl
        | cons e d ih => obtain ⟨a, n⟩ := e; rw [List.map_cons, Dict.get?_cons, Dict.get?_cons, ih]; split <;> rfl
      rw [get?_row_rl, h, get?_counter']; split <;> rfl
  rw [(hp.map _).sum_eq, List.map_map]
  have := sum_counter (M := Int) (fun _ => 1) (befores (corpus p sents) r)
  simp at this
  simpa [Function.comp_def] using this

end NewsNoun
