import Verif.Props.C24Ops
import Verif.Props.C21_C23
/-! C120: what a save and a load in the middle of a history keep and what they lose. -/
namespace Props
open Py Nested

/-! ### EojeolCounter -/

/-- a call on a counter: remove the eojeols a predicate selects, or save the counter and go on with what another object
    (holding anything) has loaded from that file -/
inductive CounterCall where
  | remove (q : Str → Bool)
  | restart (t : EC.State)

/-- one call, raising or not -/
def counterStep (s : EC.State) : CounterCall → EC.State × PyM Unit
  | .remove q => EC.removeCovered s q
  | .restart t => EC.load t (EC.save s)

/-- a history of calls -/
def counterRun (s : EC.State) (calls : List CounterCall) : EC.State := calls.foldl (fun s c => (counterStep s c).1) s

/-- the removals of a history -/
def removals (calls : List CounterCall) : List (Str → Bool) :=
  calls.filterMap (fun c => match c with | .remove q => some q | .restart _ => none)

/-- how many counted occurrences the removals `qs` leave of the counter `o` -/
def leftOf (o : EC.State) (qs : List (Str → Bool)) : Int :=
  ((o.counter.filter (fun kv => !qs.any (fun q => q kv.1))).map (·.2)).sum

private theorem perm_sum_int {l m : List Int} (h : l.Perm m) : l.sum = m.sum := by
  induction h with
  | nil => rfl
  | cons a _ ih => simp [ih]
  | swap a b l => simp only [List.sum_cons]; omega
  | trans _ _ h1 h2 => rw [h1, h2]

private structure Rest (o : EC.State) (qs : List (Str → Bool)) (s : EC.State) : Prop where
  wf : s.counter.WF
  perm : s.counter.Perm (o.counter.filter (fun kv => !qs.any (fun q => q kv.1)))

private theorem remove_counter (s : EC.State) (q : Str → Bool) :
    (EC.removeCovered s q).1.counter = s.counter.filter (fun kv => !q kv.1) := by
  unfold EC.removeCovered EC.setCoverage
  dsimp only
  split
  · rfl
  · split <;> rfl

private theorem Rest.remove {o s : EC.State} {qs : List (Str → Bool)} (h : Rest o qs s) (q : Str → Bool) :
    Rest o (qs ++ [q]) (EC.removeCovered s q).1 := by
  refine ⟨?_, ?_⟩
  · rw [remove_counter]; exact h.wf.filter _
  · rw [remove_counter]
    refine (h.perm.filter _).trans ?_
    rw [List.filter_filter]
    apply List.Perm.of_eq
    apply List.filter_congr
    intro x _
    simp [Bool.and_comm]

private theorem Rest.restart {o s : EC.State} {qs : List (Str → Bool)} (h : Rest o qs s)
    (hw : ∀ e ∈ Dict.keys o.counter, Writable e) (t : EC.State) :
    ∃ u, EC.load t (EC.save s) = (u, .ok ()) ∧ Rest o qs u ∧ u.countSum = leftOf o qs ∧ u.coverage = 0 := by
  obtain ⟨u, h1, _, h3, h4, h5, _, h7⟩ := C22_roundtrip s t h.wf (by
    intro e he
    obtain ⟨kv, hm, rfl⟩ := List.mem_map.1 he
    exact hw _ (List.mem_map.2 ⟨kv, (List.mem_filter.1 (h.perm.subset hm)).1, rfl⟩))
  refine ⟨u, h1, ⟨h3, h4.trans h.perm⟩, ?_, h7⟩
  rw [h5]
  exact perm_sum_int (h.perm.map (·.2))

private theorem Rest.run {o : EC.State} (hw : ∀ e ∈ Dict.keys o.counter, Writable e) (calls : List CounterCall) :
    ∀ {s : EC.State} {qs : List (Str → Bool)}, Rest o qs s → Rest o (qs ++ removals calls) (counterRun s calls) := by
  induction calls with
  | nil => intro s qs h; simpa [removals, counterRun] using h
  | cons c calls ih =>
    intro s qs h
    cases c with
    | remove q =>
      have := ih (h.remove q)
      simpa [removals, counterRun, counterStep] using this
    | restart t =>
      obtain ⟨u, hu, hr, _⟩ := h.restart hw t
      have := ih hr
      simpa [removals, counterRun, counterStep, hu] using this

private theorem getitem_rest {o s : EC.State} (ho : o.counter.WF) {qs : List (Str → Bool)} (h : Rest o qs s) (e : Str) :
    EC.getitem s e = if ∃ q ∈ qs, q e = true then 0 else EC.getitem o e := by
  unfold EC.getitem Dict.getD
  have : Dict.get? s.counter e = Dict.get? (o.counter.filter (fun kv => !qs.any (fun q => q kv.1))) e := by
    apply Option.ext
    intro v
    have hw' : Dict.WF (o.counter.filter (fun kv => !qs.any (fun q => q kv.1))) := ho.filter _
    rw [← Dict.mem_iff_get? h.wf, ← Dict.mem_iff_get? hw']
    exact h.perm.mem_iff
  rw [this, Dict.get?_filter ho]
  by_cases hq : ∃ q ∈ qs, q e = true
  · rw [if_pos hq]
    cases Dict.get? o.counter e with
    | none => rfl
    | some v =>
      have : qs.any (fun q => q e) = true := List.any_eq_true.2 hq
      simp [Option.filter, this]
  · rw [if_neg hq]
    cases Dict.get? o.counter e with
    | none => rfl
    | some v =>
      have : qs.any (fun q => q e) = false := by
        rw [Bool.eq_false_iff]; intro hc; exact hq (List.any_eq_true.1 hc)
      simp [Option.filter, this]

private theorem leftOf_eq {o s : EC.State} {qs : List (Str → Bool)} (h : Rest o qs s) : EC.numUncovered s = leftOf o qs :=
  perm_sum_int (h.perm.map (·.2))

/-- C120: any history of removals with saves and loads in between, anywhere, into objects that held anything. The saves
    and loads are invisible to the counts and to the remaining total, and none of them raises. -/
theorem C120_counts (o : EC.State) (hf : Fresh o) (hw : ∀ e ∈ Dict.keys o.counter, Writable e) (calls : List CounterCall) :
    (∀ e, EC.getitem (counterRun o calls) e = if ∃ q ∈ removals calls, q e = true then 0 else EC.getitem o e) ∧
    EC.numUncovered (counterRun o calls) = leftOf o (removals calls) ∧
    ∀ t, (EC.load t (EC.save (counterRun o calls))).2 = .ok () := by
  have h0 : Rest o [] o := ⟨hf.wf, .of_eq (List.filter_eq_self.2 (fun _ _ => rfl)).symm⟩
  have h := h0.run hw calls
  rw [List.nil_append] at h
  refine ⟨getitem_rest hf.wf h, leftOf_eq h, fun t => ?_⟩
  obtain ⟨u, hu, _⟩ := h.restart hw t
  rw [hu]

private theorem removeAll_run (qs : List (Str → Bool)) : ∀ s, (removeAll s qs).1 = counterRun s (qs.map .remove) := by
  induction qs with
  | nil => intro s; rfl
  | cons q qs ih =>
    intro s
    simp only [removeAll, List.map_cons]
    exact ih _

private theorem removals_map (qs : List (Str → Bool)) : removals (qs.map .remove) = qs := by
  induction qs with
  | nil => rfl
  | cons q qs ih =>
    unfold removals at ih ⊢
    simp [ih]

private theorem sum_zero_nil {l : List Int} (hp : ∀ n ∈ l, 1 ≤ n) (h : l.sum = 0) : l = [] := by
  have key : ∀ l : List Int, (∀ n ∈ l, 1 ≤ n) → 0 ≤ l.sum := by
    intro l
    induction l with
    | nil => intro _; exact le_refl _
    | cons a l ih =>
      intro hp
      have := ih (fun n hn => hp n (by simp [hn])); have := hp a (by simp)
      rw [List.sum_cons]; omega
  cases l with
  | nil => rfl
  | cons a l =>
    have h1 := key l (fun n hn => hp n (by simp [hn])); have h2 := hp a (by simp)
    rw [List.sum_cons] at h; omega

private theorem zero_stuck (qs : List (Str → Bool)) : ∀ s : EC.State, s.countSum = 0 → s.coverage = 0 →
    (∀ r ∈ (removeAll s qs).2, r = .error .zeroDivision) ∧ (removeAll s qs).1.coverage = 0 := by
  induction qs with
  | nil => intro s _ h; exact ⟨by simp [removeAll], h⟩
  | cons q qs ih =>
    intro s h hc
    have he : EC.removeCovered s q = ({ s with counter := s.counter.filter (fun kv => !q kv.1) }, .error .zeroDivision) := by
      unfold EC.removeCovered; dsimp only; rw [if_pos h]
    simp only [removeAll, he]
    obtain ⟨i1, i2⟩ := ih { s with counter := s.counter.filter (fun kv => !q kv.1) } h hc
    refine ⟨?_, i2⟩
    intro r hr
    rcases List.mem_cons.1 hr with rfl | hr
    · rfl
    · exact i1 r hr

/-- C120: but not to the coverage, which starts again from what was left at the last save: removals `qs` after a save
    made when `left` occurrences were left give coverage `1 - (what is left now) / left`; and when nothing was left at
    the save, every later removal raises ZeroDivisionError (and the coverage reads 0, not 1). -/
theorem C120_coverage (o : EC.State) (hf : Fresh o) (hw : ∀ e ∈ Dict.keys o.counter, Writable e) (calls : List CounterCall)
    (t : EC.State) (qs : List (Str → Bool)) :
    (leftOf o (removals calls) ≠ 0 →
      (∀ r ∈ (removeAll (counterRun o (calls ++ [.restart t])) qs).2, r = .ok ()) ∧
      (removeAll (counterRun o (calls ++ [.restart t])) qs).1.coverage =
        1 - (leftOf o (removals calls ++ qs) : Rat) / (leftOf o (removals calls) : Rat)) ∧
    (leftOf o (removals calls) = 0 →
      (∀ r ∈ (removeAll (counterRun o (calls ++ [.restart t])) qs).2, r = .error .zeroDivision) ∧
      (removeAll (counterRun o (calls ++ [.restart t])) qs).1.coverage = 0) := by
  have h0 : Rest o [] o := ⟨hf.wf, .of_eq (List.filter_eq_self.2 (fun _ _ => rfl)).symm⟩
  have h := h0.run hw calls
  rw [List.nil_append] at h
  obtain ⟨u, hu, hr, hs, hc⟩ := h.restart hw t
  have hrun : counterRun o (calls ++ [.restart t]) = u := by
    have : counterRun o (calls ++ [.restart t]) = (counterStep (counterRun o calls) (.restart t)).1 := by
      unfold counterRun; rw [List.foldl_append]; rfl
    rw [this]
    show (EC.load t (EC.save (counterRun o calls))).1 = u
    rw [hu]
  rw [hrun]
  have hpos : ∀ kv ∈ u.counter, 1 ≤ kv.2 := fun kv hm => hf.pos kv (List.mem_filter.1 (hr.perm.subset hm)).1
  have hfu : Fresh u := ⟨hr.wf, hpos, by rw [hs]; exact (leftOf_eq hr).symm, hc⟩
  constructor
  · intro hne
    have hcn : u.counter ≠ [] := by
      intro h0; apply hne; rw [← leftOf_eq hr]; unfold EC.numUncovered; rw [h0]; rfl
    obtain ⟨c1, c2, _⟩ := C23_coverage u hfu hcn qs
    refine ⟨c1, ?_⟩
    rw [c2, leftOf_eq hr, removeAll_run]
    have := hr.run hw (qs.map .remove)
    rw [removals_map] at this
    rw [leftOf_eq this]
  · intro hz
    exact zero_stuck qs u (by rw [hs, hz]) hc

/-- C120 example: a counter whose first half was covered, saved, loaded, and then had one more eojeol removed: coverage
    1/2 (of what was left), where without the save it is 3/4 -/
theorem C120_coverage_violation : ∃ s, EC.construct {} (some ["a b b c".toList]) = .ok s ∧
    (EC.removeCovered (counterRun s [.remove (fun e => e == "b".toList)]) (fun e => e == "c".toList)).1.coverage = 3 / 4 ∧
    (EC.removeCovered (counterRun s [.remove (fun e => e == "b".toList), .restart {}]) (fun e => e == "c".toList)).1.coverage = 1 / 2 := by
  refine ⟨_, rfl, ?_, ?_⟩ <;> decide +kernel

/-- the hypotheses of `C120_counts` and `C120_coverage` hold of every counter built from a corpus -/
theorem C120_counted (p : EC.Params) (sents : List Str) (s : EC.State) (hs : EC.construct p (some sents) = .ok s) :
    Fresh s ∧ ∀ e ∈ Dict.keys s.counter, Writable e := by
  refine ⟨C23_fresh p sents s hs, ?_⟩
  have hne : sents ≠ [] := by rintro rfl; simp [EC.construct, EC.counting, EC.checkCorpus, bind, Except.bind] at hs
  obtain ⟨s', hs', _, _, hm⟩ := C21_bounds p sents hne
  rw [hs] at hs'; cases hs'
  intro e he
  obtain ⟨⟨k, c⟩, hkc, rfl⟩ := List.mem_map.1 he
  have := (hm k c hkc).2.2.2
  obtain ⟨x, _, hx⟩ := List.mem_flatMap.1 this
  exact ⟨splitWs_nonempty hx, splitWs_nospace hx⟩

/-! ### LRGraph -/

open LR

/-- a call on a graph: an operation, or save the graph and go on with what another object has loaded from that file -/
inductive GraphCall where
  | op (o : Op)
  | restart (t : LR.State)

/-- one call and its outcome; a save that raises leaves the object as it is -/
def graphStep (s : LR.State) : GraphCall → LR.State × PyM Unit
  | .op o => LR.step s o
  | .restart t => match LR.save s with
    | .ok text => LR.load t text
    | .error e => (s, .error e)

/-- a history of calls: the state reached and the outcome of each call -/
def graphRun (s : LR.State) : List GraphCall → LR.State × List (PyM Unit)
  | [] => (s, [])
  | c :: cs => ((graphRun (graphStep s c).1 cs).1, (graphStep s c).2 :: (graphRun (graphStep s c).1 cs).2)

/-- the same history with `reset_lrgraph` in the place of each save and load -/
def withReset : GraphCall → GraphCall
  | .op o => .op o
  | .restart _ => .op .reset

private theorem nil_of_get2 {g h : Nested Str} (hg : WF2 g) (e : ∀ a b, get2 g a b = get2 h a b) (hh : h = []) : g = [] := by
  cases g with
  | nil => rfl
  | cons x g =>
    exfalso
    obtain ⟨a, t⟩ := x
    have hm : (a, t) ∈ (a, t) :: g := by simp
    obtain ⟨y, t', ht⟩ := List.exists_cons_of_ne_nil (hg.nonempty a t hm)
    have h1 : get2 ((a, t) :: g) a y.1 = some y.2 := by
      unfold get2
      rw [(Dict.mem_iff_get? hg.outer).1 hm]
      show Dict.get? t y.1 = _
      rw [(Dict.mem_iff_get? (hg.inner a t hm)).1 (by rw [ht]; simp : (y.1, y.2) ∈ t)]
    rw [e, hh] at h1
    cases h1

private theorem writable_of_get2 {g h : Nested Str} (hg : WF2 g) (hh : WF2 h) (e : ∀ a b, get2 g a b = get2 h a b)
    (hw : WritableGraph h) : WritableGraph g := by
  have key : ∀ l t, (l, t) ∈ g → ∀ r c, (r, c) ∈ t → ∃ t', (l, t') ∈ h ∧ (r, c) ∈ t' := by
    intro l t hm r c hrc
    have h1 : get2 g l r = some c := by
      unfold get2
      rw [(Dict.mem_iff_get? hg.outer).1 hm]
      exact (Dict.mem_iff_get? (hg.inner l t hm)).1 hrc
    rw [e] at h1
    unfold get2 at h1
    cases ht : Dict.get? h l with
    | none => rw [ht] at h1; cases h1
    | some t' =>
      rw [ht] at h1
      have hm' := (Dict.mem_iff_get? hh.outer).2 ht
      exact ⟨t', hm', (Dict.mem_iff_get? (hh.inner l t' hm')).2 h1⟩
  intro l t hm
  obtain ⟨y, t0, ht⟩ := List.exists_cons_of_ne_nil (hg.nonempty l t hm)
  obtain ⟨t1, h1, _⟩ := key l t hm y.1 y.2 (by rw [ht]; simp)
  refine ⟨(hw l t1 h1).1, fun r c hrc => ?_⟩
  obtain ⟨t2, h2, h3⟩ := key l t hm r c hrc
  exact (hw l t2 h2).2 r c h3

/-- two objects with the same pairs, now and at the origin -/
private structure Same (s u : LR.State) : Prop where
  is : Inv s
  iu : Inv u
  lr : ∀ a b, get2 s.lr a b = get2 u.lr a b
  orig : ∃ g h, s.origin = some g ∧ u.origin = some h ∧ (∀ a b, get2 g a b = get2 h a b) ∧ g ≠ [] ∧ h ≠ [] ∧ WritableGraph g

private theorem same_addPair {s u : LR.State} (h : Same s u) (l r : Str) (c : Int) :
    Same (addPair s l r c).1 (addPair u l r c).1 ∧ (addPair s l r c).2 = (addPair u l r c).2 := by
  cases hv : get2 s.lr l r with
  | none =>
    have hv' : get2 u.lr l r = none := by rw [← h.lr, hv]
    rw [addPair_absent c hv, addPair_absent c hv']
    exact ⟨h, rfl⟩
  | some v =>
    have hv' : get2 u.lr l r = some v := by rw [← h.lr, hv]
    obtain ⟨a1, a2⟩ := addPair_present h.is c hv
    obtain ⟨b1, b2⟩ := addPair_present h.iu c hv'
    refine ⟨⟨inv_addPair h.is _ _ _, inv_addPair h.iu _ _ _, fun a b => by rw [a2, b2, h.lr], ?_⟩, by rw [a1, b1]⟩
    rw [addPair_origin, addPair_origin]
    exact h.orig

private theorem same_addPairs (ps : List (Str × Str)) (c : Int) : ∀ {s u : LR.State}, Same s u →
    Same (addPairs s c ps).1 (addPairs u c ps).1 ∧ (addPairs s c ps).2 = (addPairs u c ps).2 := by
  induction ps with
  | nil => intro s u h; exact ⟨h, rfl⟩
  | cons p ps ih =>
    intro s u h
    obtain ⟨h1, h2⟩ := same_addPair h p.1 p.2 c
    unfold addPairs
    cases hs : addPair s p.1 p.2 c with
    | mk s' rs =>
      cases hu : addPair u p.1 p.2 c with
      | mk u' ru =>
        rw [hs, hu] at h1 h2
        dsimp only at h1 h2
        subst h2
        cases rs with
        | ok x => exact ih h1
        | error e => exact ⟨h1, rfl⟩

private theorem same_removePair {s u : LR.State} (h : Same s u) (l r : Str) (c : Int) :
    Same (removePair s l r c) (removePair u l r c) := by
  refine ⟨inv_removePair h.is _ _ _, inv_removePair h.iu _ _ _, fun a b => ?_, h.orig⟩
  show get2 (lower s.lr l r c) a b = get2 (lower u.lr l r c) a b
  rw [(lower_spec h.is.lr l r c).2, (lower_spec h.iu.lr l r c).2, h.lr, h.lr]

private theorem same_removeEojeol {s u : LR.State} (h : Same s u) (w : Str) (c : Int) :
    Same (removeEojeol s w c) (removeEojeol u w c) := by
  unfold removeEojeol
  generalize cuts w = ps
  induction ps generalizing s u with
  | nil => exact h
  | cons p ps ih => exact ih (same_removePair h _ _ _)

private theorem reset_eq {s : LR.State} {g : Nested Str} (ho : s.origin = some g) (hne : g ≠ []) :
    reset s = ({ s with lr := g, rl := reverse g }, .ok ()) := by
  unfold reset; rw [ho]; dsimp only; rw [if_neg hne, checkLrgraph, if_neg hne, ← ho]

private theorem same_reset {s u : LR.State} (h : Same s u) : Same (reset s).1 (reset u).1 ∧ (reset s).2 = (reset u).2 := by
  obtain ⟨g, k, hg, hk, he, hgn, hkn, hw⟩ := h.orig
  have i1 := inv_reset h.is; have i2 := inv_reset h.iu
  rw [reset_eq hg hgn] at i1 ⊢
  rw [reset_eq hk hkn] at i2 ⊢
  exact ⟨⟨i1, i2, he, ⟨g, k, hg, hk, he, hgn, hkn, hw⟩⟩, rfl⟩

private theorem same_step {s u : LR.State} (h : Same s u) (o : Op) (hf : o ≠ .freeze) :
    Same (LR.step s o).1 (LR.step u o).1 ∧ (LR.step s o).2 = (LR.step u o).2 := by
  cases o with
  | addPair l r c => exact same_addPair h l r c
  | addEojeol w c => exact same_addPairs _ c h
  | removePair l r c => exact ⟨same_removePair h l r c, rfl⟩
  | removeEojeol w c => exact ⟨same_removeEojeol h w c, rfl⟩
  | reset => exact same_reset h
  | freeze => exact absurd rfl hf

private theorem same_restart {s u : LR.State} (h : Same s u) (t : LR.State) :
    Same (graphStep s (.restart t)).1 (graphStep u (.op .reset)).1 ∧
      (graphStep s (.restart t)).2 = (graphStep u (.op .reset)).2 := by
  obtain ⟨g, k, hg, hk, he, hgn, hkn, hw⟩ := h.orig
  have hgw := h.is.orig g hg
  obtain ⟨text, o, hs, hl, how, hget⟩ := load_save hg hgw hw hgn t
  have i2 := inv_reset h.iu
  show Same (match LR.save s with | .ok text => LR.load t text | .error e => (s, .error e)).1 (reset u).1 ∧
    (match LR.save s with | .ok text => LR.load t text | .error e => (s, .error e)).2 = (reset u).2
  rw [hs]
  dsimp only
  rw [hl]
  rw [reset_eq hk hkn] at i2 ⊢
  refine ⟨⟨?_, i2, fun a b => by rw [← he]; exact hget a b, ⟨o, k, rfl, hk, fun a b => by rw [hget, he], ?_, hkn, ?_⟩⟩, rfl⟩
  · exact Inv.ofCheck how (by intro g' e; cases e; exact how) rfl rfl
  · intro ho
    exact hgn (nil_of_get2 hgw (fun a b => (hget a b).symm) ho)
  · exact writable_of_get2 how hgw hget hw

private theorem same_run (cs : List GraphCall) (hf : GraphCall.op .freeze ∉ cs) : ∀ {s u : LR.State}, Same s u →
    Same (graphRun s cs).1 (graphRun u (cs.map withReset)).1 ∧ (graphRun s cs).2 = (graphRun u (cs.map withReset)).2 := by
  induction cs with
  | nil => intro s u h; exact ⟨h, rfl⟩
  | cons c cs ih =>
    intro s u h
    have hs : Same (graphStep s c).1 (graphStep u (withReset c)).1 ∧ (graphStep s c).2 = (graphStep u (withReset c)).2 := by
      cases c with
      | op o => exact same_step h o (by rintro rfl; exact hf (by simp))
      | restart t => exact same_restart h t
    obtain ⟨i1, i2⟩ := ih (fun hm => hf (by simp [hm])) hs.1
    simp only [graphRun, List.map_cons]
    exact ⟨i1, by rw [hs.2, i2]⟩

/-- C120: a graph with anything in it that was saved and loaded, any number of times and at any points of its history,
    into objects that held anything, behaves as if each save and load had been a `reset_lrgraph`: every call has the
    same outcome, and at the end `get_r` and `get_l` list the same neighbours with the same counts, ranked counts
    included (only the order among equal counts may differ). So what was added or removed before a save is lost. -/
theorem C120_graph (g : Nested Str) (hg : Plain g) (sents : List Str) (lMax rMax : Int) (s : LR.State)
    (hs : LR.construct g sents lMax rMax = .ok s) (hne : s.lr ≠ []) (hw : WritableGraph s.lr)
    (calls : List GraphCall) (hf : GraphCall.op .freeze ∉ calls) :
    (graphRun s calls).2 = (graphRun s (calls.map withReset)).2 ∧
    (∀ w, (getR (graphRun s calls).1 w 0).Perm (getR (graphRun s (calls.map withReset)).1 w 0) ∧
      (getL (graphRun s calls).1 w 0).Perm (getL (graphRun s (calls.map withReset)).1 w 0)) ∧
    (∀ w topk, (getR (graphRun s calls).1 w topk).map (·.2) = (getR (graphRun s (calls.map withReset)).1 w topk).map (·.2) ∧
      (getL (graphRun s calls).1 w topk).map (·.2) = (getL (graphRun s (calls.map withReset)).1 w topk).map (·.2)) := by
  obtain ⟨hi, ho, _⟩ := construct_inv hg hs
  have h0 : Same s s := ⟨hi, hi, fun _ _ => rfl, s.lr, s.lr, ho, ho, fun _ _ => rfl, hne, hne, hw⟩
  obtain ⟨h, h2⟩ := same_run calls hf h0
  generalize (graphRun s calls).1 = x at *
  generalize (graphRun s (calls.map withReset)).1 = y at *
  have p1 : ∀ w, (sorted countLe (row x.lr w)).Perm (sorted countLe (row y.lr w)) := fun w =>
    (sorted_perm _ _).trans ((row_perm h.is.lr h.iu.lr h.lr w).trans (sorted_perm _ _).symm)
  have p2 : ∀ w, (sorted countLe (row x.rl w)).Perm (sorted countLe (row y.rl w)) := fun w =>
    (sorted_perm _ _).trans ((row_perm h.is.rl h.iu.rl (fun a b => by rw [h.is.tr, h.iu.tr, h.lr]) w).trans (sorted_perm _ _).symm)
  have hp : ∀ d : Dict Str Int, (sorted countLe d).Pairwise (fun x y => x.2 ≥ y.2) := fun d =>
    (pairwise_sorted countLe_totalPre d).imp (fun h => by simpa [countLe] using h)
  refine ⟨h2, fun w => ⟨p1 w, p2 w⟩, fun w topk => ⟨?_, ?_⟩⟩
  · unfold getR
    have := counts_eq (p1 w) (hp _) (hp _)
    unfold topK; split
    · simp only [List.map_take]; rw [this]
    · exact this
  · unfold getL
    have := counts_eq (p2 w) (hp _) (hp _)
    unfold topK; split
    · simp only [List.map_take]; rw [this]
    · exact this

/-- C120: a removal made before a save is undone by the load, although it was visible when the file was written -/
theorem C120_graph_violation : ∃ s, LR.construct [("너무".toList, [("".toList, 4), ("가".toList, 1)])] [] 10 9 = .ok s ∧
    getR (graphRun s [.op (.removePair "너무".toList "가".toList 1)]).1 "너무".toList 0 = [([], 4)] ∧
    getR (graphRun s [.op (.removePair "너무".toList "가".toList 1), .restart {}]).1 "너무".toList 0 = [([], 4), ("가".toList, 1)] := by
  refine ⟨_, rfl, ?_, ?_⟩ <;> decide +kernel

/-- the hypotheses of `C120_graph` hold of a graph built from a sentence -/
example : ∃ s, LR.construct [] ["너무가 너무".toList] 10 9 = .ok s ∧ s.lr ≠ [] ∧ WritableGraph s.lr := by
  refine ⟨_, rfl, ?_, ?_⟩
  · decide +kernel
  · have : ∀ x ∈ constructGraph 10 9 ["너무가 너무".toList], (x.1 ≠ [] ∧ ∀ c ∈ x.1, isSpace c = false) ∧
        ∀ y ∈ x.2, y.1 = [] ∨ (y.1 ≠ [] ∧ ∀ c ∈ y.1, isSpace c = false) := by decide +kernel
    intro l t hm
    exact ⟨(this (l, t) hm).1, fun r c hrc => (this (l, t) hm).2 (r, c) hrc⟩

end Props
