import Verif.Props.C64
import Verif.Props.C53
import Verif.Props.C30Pruned
/-! C64: accessor variety and branching entropy after any history of trainings. -/
namespace Props
open Py WX

/-- one call `train(corpus, num_for_pruning, cumulate)`: the sentences the corpus hands out, the exception it raises after them, if it does, and its length -/
structure TrainCall where
  sents : List Str
  pruning : Int := 0
  cumulate : Bool := true
  fails : Option PyErr := none
  len : Nat := sents.length

/-- the call on an extractor -/
def TrainCall.run (p : Params) (s : State) (c : TrainCall) : State × PyM Unit :=
  Feed.wordTrain p s ⟨c.len, fun _ => ⟨c.sents, c.fails⟩⟩ c.pruning c.cumulate

/-- the calls made one after the other on a new extractor, whether they raise or not -/
def trainAll (p : Params) (calls : List TrainCall) : State := calls.foldl (fun s c => (c.run p s).1) {}

/-- the count of `w` as a word beginning after the calls: added up sentence by sentence, thrown away by every pruning that finds it below `min_frequency`
    and at the end of every call that gets there, and by every call that does not cumulate. A corpus without length is not touched. -/
def keptPrefix (p : Params) (calls : List TrainCall) (w : Str) : Nat :=
  calls.foldl (fun n c => if c.len = 0 then n else prunedRun p.minFrequency (if c.cumulate then n else 0)
    (c.sents.zipIdx.map (fun x => (prefixCount p.maxLeft (splitWs x.1) w, prunes c.pruning x.2 x.1)) ++ (if c.fails = none then [(0, true)] else []))) 0

/-- the same for word ends -/
def keptSuffix (p : Params) (calls : List TrainCall) (w : Str) : Nat :=
  calls.foldl (fun n c => if c.len = 0 then n else prunedRun p.minFrequency (if c.cumulate then n else 0)
    (c.sents.zipIdx.map (fun x => (suffixCount p.maxRight (splitWs x.1) w, prunes c.pruning x.2 x.1)) ++ (if c.fails = none then [(0, true)] else []))) 0

/-- a number that is given up when it is 1 -/
def atLeastTwo (n : Nat) : Nat := if 2 ≤ n then n else 0

/-- how often `c` follows `w` across a word boundary, given up at the end of a call when it is only once -/
def keptAfter (p : Params) (calls : List TrainCall) (w : Str) (c : Char) : Nat :=
  calls.foldl (fun n t => if t.len = 0 then n else
    (if t.fails = none then atLeastTwo else id) ((if t.cumulate then n else 0) + afterCount p.maxRight t.sents w c)) 0

/-- how often `c` precedes `w` across a word boundary, likewise -/
def keptBefore (p : Params) (calls : List TrainCall) (w : Str) (c : Char) : Nat :=
  calls.foldl (fun n t => if t.len = 0 then n else
    (if t.fails = none then atLeastTwo else id) ((if t.cumulate then n else 0) + beforeCount p.maxLeft t.sents w c)) 0

private theorem getD_pruneOne {d : Dict Str Nat} (h : d.WF) (w : Str) : Dict.getD (pruneOne d) w 0 = atLeastTwo (Dict.getD d w 0) := by
  unfold pruneOne atLeastTwo
  simp only [Dict.getD, Dict.get?_filter h]
  cases Dict.get? d w with
  | none => simp
  | some v =>
    simp only [Option.filter, Option.getD_some]
    by_cases hv : 2 ≤ v
    · rw [if_pos hv, if_pos (decide_eq_true (show v > 1 by omega))]; rfl
    · rw [if_neg hv, if_neg (fun h => hv (by have := of_decide_eq_true h; omega))]; rfl

/-- the four tables of `s` hold the given counts -/
private structure Holds (s : State) (L R : Str → Nat) (A B : Str → Char → Nat) : Prop where
  hL : ∀ w, Dict.getD s.L w 0 = L w
  hR : ∀ w, Dict.getD s.R w 0 = R w
  hA : ∀ w c, Dict.getD s.aL (w ++ [' ', c]) 0 = A w c
  hB : ∀ w c, Dict.getD s.aR (c :: ' ' :: w) 0 = B w c

private theorem call_holds (p : Params) (s : State) (ht : Trained p s) (c : TrainCall) (L R : Str → Nat) (A B : Str → Char → Nat) (hs : Holds s L R A B) :
    Holds (c.run p s).1 (fun w => if c.len = 0 then L w else prunedRun p.minFrequency (if c.cumulate then L w else 0)
        (c.sents.zipIdx.map (fun x => (prefixCount p.maxLeft (splitWs x.1) w, prunes c.pruning x.2 x.1)) ++ (if c.fails = none then [(0, true)] else [])))
      (fun w => if c.len = 0 then R w else prunedRun p.minFrequency (if c.cumulate then R w else 0)
        (c.sents.zipIdx.map (fun x => (suffixCount p.maxRight (splitWs x.1) w, prunes c.pruning x.2 x.1)) ++ (if c.fails = none then [(0, true)] else [])))
      (fun w x => if c.len = 0 then A w x else (if c.fails = none then atLeastTwo else id) ((if c.cumulate then A w x else 0) + afterCount p.maxRight c.sents w x))
      (fun w x => if c.len = 0 then B w x else (if c.fails = none then atLeastTwo else id) ((if c.cumulate then B w x else 0) + beforeCount p.maxLeft c.sents w x)) := by
  unfold TrainCall.run Feed.wordTrain
  by_cases hl : c.len = 0
  · simp only [hl, Nat.le_refl, if_true]
    exact hs
  have hl' : ¬ c.len ≤ 0 := by omega
  simp only [hl, hl', if_false]
  obtain ⟨s1, hs1, h1t, h1⟩ : ∃ s1, s1 = (if c.cumulate then s else {}) ∧ Trained p s1 ∧ Holds s1 (fun w => if c.cumulate then L w else 0)
      (fun w => if c.cumulate then R w else 0) (fun w x => if c.cumulate then A w x else 0) (fun w x => if c.cumulate then B w x else 0) := by
    cases hc : c.cumulate with
    | true => exact ⟨s, rfl, ht, ⟨hs.hL, hs.hR, hs.hA, hs.hB⟩⟩
    | false => exact ⟨{}, rfl, .fresh, ⟨fun _ => rfl, fun _ => rfl, fun _ _ => rfl, fun _ _ => rfl⟩⟩
  rw [← hs1]
  have hg0 := h1t.good
  have hg := hg0.foldl p c.pruning c.sents.zipIdx
  obtain ⟨f1, f2⟩ := wx_fold_a p c.pruning c.sents.zipIdx s1
  have hfst : c.sents.zipIdx.map (·.1) = c.sents := by simp
  have eA : ∀ w x, Dict.getD (c.sents.zipIdx.foldl (trainSent p c.pruning) s1).aL (w ++ [' ', x]) 0 =
      (if c.cumulate then A w x else 0) + afterCount p.maxRight c.sents w x := by
    intro w x
    rw [f1, getD_incAll, h1.hA, wx_count_after, hfst]
  have eB : ∀ w x, Dict.getD (c.sents.zipIdx.foldl (trainSent p c.pruning) s1).aR (x :: ' ' :: w) 0 =
      (if c.cumulate then B w x else 0) + beforeCount p.maxLeft c.sents w x := by
    intro w x
    rw [f2, getD_incAll, h1.hB, wx_count_before, hfst]
  cases hf : c.fails with
  | some e =>
    simp only [reduceCtorEq, if_false, List.append_nil, id]
    refine ⟨fun w => ?_, fun w => ?_, eA, eB⟩
    · rw [(wx_fold_pruned p c.pruning w c.sents.zipIdx s1 hg0).1, h1.hL]
    · rw [(wx_fold_pruned p c.pruning w c.sents.zipIdx s1 hg0).2, h1.hR]
  | none =>
    simp only [if_true]
    refine ⟨fun w => ?_, fun w => ?_, fun w x => ?_, fun w x => ?_⟩
    · rw [wx_last_prune hg.wL, (wx_fold_pruned p c.pruning w c.sents.zipIdx s1 hg0).1, h1.hL, wx_run_append]
    · rw [wx_last_prune hg.wR, (wx_fold_pruned p c.pruning w c.sents.zipIdx s1 hg0).2, h1.hR, wx_run_append]
    · rw [getD_pruneOne hg.waL, eA]
    · rw [getD_pruneOne hg.waR, eB]

private theorem calls_hold (p : Params) (calls : List TrainCall) (s : State) (ht : Trained p s)
    (L R : Str → Nat) (A B : Str → Char → Nat) (hs : Holds s L R A B) :
    Trained p (calls.foldl (fun s c => (c.run p s).1) s) ∧ Holds (calls.foldl (fun s c => (c.run p s).1) s)
      (fun w => calls.foldl (fun n c => if c.len = 0 then n else prunedRun p.minFrequency (if c.cumulate then n else 0)
        (c.sents.zipIdx.map (fun x => (prefixCount p.maxLeft (splitWs x.1) w, prunes c.pruning x.2 x.1)) ++ (if c.fails = none then [(0, true)] else []))) (L w))
      (fun w => calls.foldl (fun n c => if c.len = 0 then n else prunedRun p.minFrequency (if c.cumulate then n else 0)
        (c.sents.zipIdx.map (fun x => (suffixCount p.maxRight (splitWs x.1) w, prunes c.pruning x.2 x.1)) ++ (if c.fails = none then [(0, true)] else []))) (R w))
      (fun w x => calls.foldl (fun n t => if t.len = 0 then n else
        (if t.fails = none then atLeastTwo else id) ((if t.cumulate then n else 0) + afterCount p.maxRight t.sents w x)) (A w x))
      (fun w x => calls.foldl (fun n t => if t.len = 0 then n else
        (if t.fails = none then atLeastTwo else id) ((if t.cumulate then n else 0) + beforeCount p.maxLeft t.sents w x)) (B w x)) := by
  induction calls generalizing s L R A B with
  | nil => exact ⟨ht, hs⟩
  | cons c cs ih => exact ih _ (.feed _ _ _ ht) _ _ _ _ (call_holds p s ht c L R A B hs)

private theorem get?_of_getD (d : Dict Str Nat) (w : Str) (hp : ∀ e ∈ d, 0 < e.2) :
    Dict.get? d w = if 0 < Dict.getD d w 0 then some (Dict.getD d w 0) else none := by
  unfold Dict.getD
  cases h : Dict.get? d w with
  | none => rfl
  | some v => have := hp _ (Dict.mem_of_get? h); simp only [Option.getD_some] at this ⊢; rw [if_pos this]

/-- **C64** After any history of trainings, pruned or not, cumulating or not, completed or cut short by an exception of the corpus: the left accessor variety of `w` is the number of characters `c` for which `c w` is
    a word ending still counted, plus the number of characters still counted as preceding `w` across a word boundary; the right one likewise; the
    branching entropies are the Shannon entropies of those counts. -/
theorem C64_history (p : Params) (calls : List TrainCall) (s : State) (h : trainAll p calls = s) (w : Str) :
    ∃ xl yl xr yr : List Char, xl.Nodup ∧ yl.Nodup ∧ xr.Nodup ∧ yr.Nodup ∧
      (∀ c, c ∈ xl ↔ 0 < keptSuffix p calls (c :: w)) ∧ (∀ c, c ∈ yl ↔ 0 < keptBefore p calls w c) ∧
      (∀ c, c ∈ xr ↔ 0 < keptPrefix p calls (w ++ [c])) ∧ (∀ c, c ∈ yr ↔ 0 < keptAfter p calls w c) ∧
      accessorVariety s w = (xl.length + yl.length, xr.length + yr.length) ∧
      branchingEntropy s w = (shannon (xl.map (fun c => keptSuffix p calls (c :: w)) ++ yl.map (keptBefore p calls w)),
        shannon (xr.map (fun c => keptPrefix p calls (w ++ [c])) ++ yr.map (keptAfter p calls w))) := by
  obtain ⟨ht, H⟩ := calls_hold p calls {} .fresh (fun _ => 0) (fun _ => 0) (fun _ _ => 0) (fun _ _ => 0)
    ⟨fun _ => rfl, fun _ => rfl, fun _ _ => rfl, fun _ _ => rfl⟩
  change Trained p (trainAll p calls) at ht
  change Holds (trainAll p calls) _ _ _ _ at H
  rw [h] at ht H
  have hg := ht.good
  have hpos := C53_positive p s ht
  have htwo := wx_boundary_pos ht
  obtain ⟨xl, nl, ml, el⟩ := wx_ext_list s.R hg.wR (fun kv => decide ((kv.1.length : Int) - 1 = w.length ∧ kv.1.drop 1 = w)) (fun c => c :: w)
    (fun k => k.headD ' ') (by
      rintro ⟨k, n⟩ _ hq
      simp only [decide_eq_true_eq] at hq
      cases k with
      | nil => simp at hq
      | cons a k => simp at hq ⊢; exact hq.2.symm) (by intro c n; simp) (by intro c; rfl)
    (fun c => keptSuffix p calls (c :: w)) (fun c => 0 < keptSuffix p calls (c :: w)) (fun c => by
      rw [get?_of_getD _ _ (fun e he => (hpos.2 e he).1), H.hR]; rfl)
  obtain ⟨xr, nr, mr, er⟩ := wx_ext_list s.L hg.wL (fun kv => decide ((kv.1.length : Int) - 1 = w.length ∧ kv.1.dropLast = w)) (fun c => w ++ [c])
    (fun k => k.getLast?.getD ' ') (by
      rintro ⟨k, n⟩ _ hq
      simp only [decide_eq_true_eq] at hq
      rcases List.eq_nil_or_concat k with rfl | ⟨k, a, rfl⟩
      · simp at hq
      · simp at hq ⊢; exact hq.2.symm) (by intro c n; simp) (by intro c; simp)
    (fun c => keptPrefix p calls (w ++ [c])) (fun c => 0 < keptPrefix p calls (w ++ [c])) (fun c => by
      rw [get?_of_getD _ _ (fun e he => (hpos.1 e he).1), H.hL]; rfl)
  obtain ⟨yl, nyl, myl, eyl⟩ := wx_ext_list s.aR hg.waR (fun kv => decide ((kv.1.length : Int) - 2 = w.length ∧ kv.1.drop 2 = w)) (fun c => c :: ' ' :: w)
    (fun k => k.headD ' ') (by
      rintro ⟨k, n⟩ hm hq
      simp only [decide_eq_true_eq] at hq
      obtain ⟨v, c, e, _⟩ := hg.shR k (List.mem_map.2 ⟨_, hm, rfl⟩)
      subst e
      simp at hq ⊢; exact hq.2.symm) (by intro c n; simp; omega) (by intro c; rfl)
    (fun c => keptBefore p calls w c) (fun c => 0 < keptBefore p calls w c) (fun c => by
      rw [get?_of_getD _ _ htwo.2, H.hB]; rfl)
  obtain ⟨yr, nyr, myr, eyr⟩ := wx_ext_list s.aL hg.waL (fun kv => decide ((kv.1.length : Int) - 2 = w.length ∧ kv.1.take (kv.1.length - 2) = w)) (fun c => w ++ [' ', c])
    (fun k => k.getLast?.getD ' ') (by
      rintro ⟨k, n⟩ hm hq
      simp only [decide_eq_true_eq] at hq
      obtain ⟨v, c, e, _⟩ := hg.shL k (List.mem_map.2 ⟨_, hm, rfl⟩)
      subst e
      simp at hq ⊢; exact hq.2.symm) (by intro c n; simp) (by intro c; simp)
    (fun c => keptAfter p calls w c) (fun c => 0 < keptAfter p calls w c) (fun c => by
      rw [get?_of_getD _ _ htwo.1, H.hA]; rfl)
  refine ⟨xl, yl, xr, yr, nl, nyl, nr, nyr, ml, myl, mr, myr, ?_, ?_⟩
  · unfold accessorVariety
    rw [leftExt_eq s hg, rightExt_eq s hg, el, er, eyl, eyr]
    simp only [List.length_append, List.length_map]
  · have hb : branchingEntropy s w = (entropy (leftExt s w), entropy (rightExt s w)) := by
      unfold branchingEntropy
      have : ∀ l : List (Str × Nat), (if l = [] then (0 : ℝ) else entropy l) = entropy l := by
        intro l; split
        · rename_i h; rw [h]; rfl
        · rfl
      rw [this, this]
    rw [hb, wx_entropy_eq, wx_entropy_eq, leftExt_eq s hg, rightExt_eq s hg, el, er, eyl, eyr]
    simp only [List.map_append, List.map_map]
    rfl

/-- **C30** After any history of trainings, pruned or not, cumulating or not, the two frequencies of a word are the counts still kept. -/
theorem C30_history (p : Params) (calls : List TrainCall) (s : State) (h : trainAll p calls = s) (w : Str) :
    frequency s w = (keptPrefix p calls w, keptSuffix p calls w) := by
  obtain ⟨_, H⟩ := calls_hold p calls {} .fresh (fun _ => 0) (fun _ => 0) (fun _ _ => 0) (fun _ _ => 0)
    ⟨fun _ => rfl, fun _ => rfl, fun _ _ => rfl, fun _ _ => rfl⟩
  change Holds (trainAll p calls) _ _ _ _ at H
  rw [h] at H
  unfold frequency
  rw [H.hL, H.hR]
  rfl

/-- **C64** What the calls raise: ValueError for a corpus without length, the exception of a corpus that fails, and nothing otherwise; and a call with
    a corpus that does not fail is the ordinary `train` of its sentences. -/
theorem C64_history_ok (p : Params) (s : State) (c : TrainCall) :
    ((c.run p s).2 = if c.len = 0 then .error .valueError else match c.fails with | some e => .error e | none => .ok ()) ∧
    (c.len = c.sents.length → c.fails = none →
      train p s c.sents c.pruning c.cumulate = (if c.sents = [] then .error .valueError else .ok (c.run p s).1)) := by
  unfold TrainCall.run Feed.wordTrain
  constructor
  · by_cases hl : c.len = 0
    · have hl' : c.len ≤ 0 := by omega
      simp only [hl, Nat.le_refl, if_true]
    · have hl' : ¬ c.len ≤ 0 := by omega
      simp only [hl, hl', if_false]
      cases c.fails <;> rfl
  · intro hl hf
    by_cases hs : c.sents = []
    · rw [if_pos hs, hs]; rfl
    · have hl' : ¬ c.len ≤ 0 := by have := List.length_pos_iff.2 hs; omega
      rw [if_neg hs, wx_train_ok p _ _ _ _ hs]
      simp only [hl', if_false, hf]

/-- two trainings: across the calls the boundary "나 다" is met once and once: it is given up both times; within one call it is kept -/
example : (keptAfter {} [{ sents := ["가나 다".toList] }, { sents := ["가나 다".toList] }] "나".toList '다',
    keptAfter {} [{ sents := ["가나 다".toList, "가나 다".toList] }] "나".toList '다',
    keptAfter {} [{ sents := ["가나 다".toList, "가나 다".toList] }, { sents := ["가나 다".toList], cumulate := false }] "나".toList '다') = (0, 2, 0) := by decide +kernel

/-- a corpus that fails after its first sentence, and the rest of it: nothing is given up in between -/
example : keptAfter {} [{ sents := ["가나 다".toList], fails := some .osError, len := 5 }, { sents := ["가나 다".toList] }] "나".toList '다' = 2 := by decide +kernel
end Props
