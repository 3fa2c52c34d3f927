import Verif.Proofs.LRGraph2
import Verif.Props.C21_C23
/-! C24 transposition invariant, C25 reset, C26 conversions, C27 save/load, C28 eojeol removal of `LRGraph`. -/
namespace Props
open Py Nested LR

/-- an L-R graph given to the constructor: a dict of non-empty dicts (`WF2`: keys unique, as in any dict; no empty
    inner dict) -/
abbrev Plain (g : Nested Str) : Prop := WF2 g

/-! ### C24 -/

/-- C24: in every state reached from a constructed graph by any history of calls (raising ones included), looking up a
    pair from the left and from the right gives the same count, the empty right part is not listed from the right, no
    neighbour is listed twice, and neither direction keeps an empty neighbour table. -/
theorem C24_transposed (g : Nested Str) (hg : Plain g) (sents : List Str) (lMax rMax : Int) (s : LR.State)
    (hs : LR.construct g sents lMax rMax = .ok s) (ops : List Op) :
    (∀ l r c, r ≠ [] → ((r, c) ∈ getR (run s ops) l 0 ↔ (l, c) ∈ getL (run s ops) r 0)) ∧
    getL (run s ops) [] 0 = [] ∧
    (∀ l, ((getR (run s ops) l 0).map (·.1)).Nodup) ∧ (∀ r, ((getL (run s ops) r 0).map (·.1)).Nodup) ∧
    (∀ l t, (l, t) ∈ (run s ops).lr → t ≠ []) ∧ (∀ r t, (r, t) ∈ (run s ops).rl → t ≠ []) := by
  have h := inv_run (construct_inv hg hs).1 ops
  refine ⟨?_, ?_, ?_, ?_, fun l t hm => h.lr.nonempty l t hm, fun r t hm => h.rl.nonempty r t hm⟩
  · intro l r c hr
    rw [mem_getR h, mem_getL h, h.tr, if_neg hr]
  · apply List.eq_nil_iff_forall_not_mem.2
    rintro ⟨l, c⟩ hm
    rw [mem_getL h, h.tr] at hm
    simp at hm
  · intro l
    unfold getR topK
    rw [if_neg (by omega)]
    exact (((sorted_perm _ _).map _).nodup_iff).2 (h.lr.row_wf l)
  · intro r
    unfold getL topK
    rw [if_neg (by omega)]
    exact (((sorted_perm _ _).map _).nodup_iff).2 (h.rl.row_wf r)

/-- C24: `get_r` and `get_l` list neighbours by descending count, and a positive `topk` returns the first `topk` of
    the full list. -/
theorem C24_ranking (s : LR.State) (w : Str) (topk : Int) :
    (getR s w topk).Pairwise (fun x y => x.2 ≥ y.2) ∧ (getL s w topk).Pairwise (fun x y => x.2 ≥ y.2) ∧
    getR s w topk = (if topk > 0 then (getR s w 0).take topk.toNat else getR s w 0) ∧
    getL s w topk = (if topk > 0 then (getL s w 0).take topk.toNat else getL s w 0) := by
  have hp : ∀ d : Dict Str Int, (sorted countLe d).Pairwise (fun x y => x.2 ≥ y.2) := fun d =>
    (pairwise_sorted countLe_totalPre d).imp (fun h => by simpa [countLe] using h)
  have ht : ∀ (d : List (Str × Int)), d.Pairwise (fun x y => x.2 ≥ y.2) → (topK d topk).Pairwise (fun x y => x.2 ≥ y.2) := by
    intro d hd; unfold topK; split
    · exact hd.sublist (List.take_sublist _ _)
    · exact hd
  refine ⟨ht _ (hp _), ht _ (hp _), ?_, ?_⟩ <;> rfl

/-- C24: `add_lr_pair` raises KeyError and changes nothing exactly when the pair is not yet in the graph; otherwise it
    adds `count` to that pair and to no other. -/
theorem C24_add (g : Nested Str) (hg : Plain g) (sents : List Str) (lMax rMax : Int) (s : LR.State)
    (hs : LR.construct g sents lMax rMax = .ok s) (ops : List Op) (l r : Str) (k : Int) :
    (get2 (run s ops).lr l r = none → addPair (run s ops) l r k = (run s ops, .error .keyError)) ∧
    (∀ c, get2 (run s ops).lr l r = some c → ∃ t, addPair (run s ops) l r k = (t, .ok ()) ∧
      ∀ l' r', get2 t.lr l' r' = if l' = l ∧ r' = r then some (c + k) else get2 (run s ops).lr l' r') := by
  have h := inv_run (construct_inv hg hs).1 ops
  generalize run s ops = t at *
  constructor
  · intro hn
    unfold addPair
    cases hb : bump t.lr l r k with
    | error e => have := (bump_error hb).1; subst this; rfl
    | ok x => obtain ⟨v, hv, _⟩ := bump_ok hb; rw [hn] at hv; cases hv
  · intro c hc
    unfold addPair
    cases hb : bump t.lr l r k with
    | error e => have := (bump_error hb).2; rw [hc] at this; cases this
    | ok lr =>
      obtain ⟨v, hv, hget, _⟩ := bump_ok hb
      rw [hc] at hv; cases hv
      have hget' : ∀ l' r', get2 lr l' r' = if l' = l ∧ r' = r then some (c + k) else get2 t.lr l' r' := by
        intro l' r'
        rw [hget]
        by_cases e : l = l' ∧ r = r'
        · obtain ⟨rfl, rfl⟩ := e; simp
        · rw [if_neg e, if_neg (fun e' : l' = l ∧ r' = r => e ⟨e'.1.symm, e'.2.symm⟩)]
      dsimp only
      by_cases hr : r = []
      · rw [if_pos hr]; exact ⟨_, rfl, hget'⟩
      · rw [if_neg hr]
        cases hb2 : bump t.rl r l k with
        | error e => have := (bump_error hb2).2; rw [h.tr, if_neg hr, hc] at this; cases this
        | ok rl => exact ⟨_, rfl, hget'⟩

/-! ### C25 -/

/-- C25: after any history without `freeze`, `reset_lrgraph` raises nothing and makes every query answer as right after
    construction (order included). -/
theorem C25_reset (g : Nested Str) (hg : Plain g) (sents : List Str) (lMax rMax : Int) (s : LR.State)
    (hs : LR.construct g sents lMax rMax = .ok s) (ops : List Op) (hf : Op.freeze ∉ ops) :
    (reset (run s ops)).2 = .ok () ∧
    ∀ w topk, getR (reset (run s ops)).1 w topk = getR s w topk ∧ getL (reset (run s ops)).1 w topk = getL s w topk := by
  obtain ⟨_, ho, hrl, _⟩ := construct_inv hg hs
  have hro := run_origin s ops hf
  by_cases he : s.lr = []
  · have hrle : s.rl = [] := by rw [hrl, he]; rfl
    obtain ⟨e1, e2⟩ := run_empty s ops ⟨he, hrle, Or.inl (by rw [ho, he])⟩
    have hr : reset (run s ops) = (run s ops, .ok ()) := by
      unfold reset; rw [hro, ho]; dsimp only; rw [if_pos he]
    rw [hr]
    refine ⟨rfl, fun w topk => ?_⟩
    unfold getR getL
    dsimp only
    rw [e1, e2, he, hrle]
    exact ⟨rfl, rfl⟩
  · have hr : reset (run s ops) = ({ run s ops with lr := s.lr, rl := s.rl }, .ok ()) := by
      unfold reset; rw [hro, ho]; dsimp only; rw [if_neg he, checkLrgraph, if_neg he, ← hrl, hro, ho]
    rw [hr]
    exact ⟨rfl, fun w topk => ⟨rfl, rfl⟩⟩

/-- C25: once `freeze` has been called, `reset_lrgraph` changes nothing, whatever happens in between. -/
theorem C25_frozen (s : LR.State) (ops : List Op) : reset (run (freeze s) ops) = (run (freeze s) ops, .ok ()) := by
  have : ∀ (ops : List Op) (s : LR.State), s.origin = none → (run s ops).origin = none := by
    intro ops
    induction ops with
    | nil => intro s h; exact h
    | cons op ops ih =>
      intro s h
      apply ih
      by_cases hop : op = .freeze
      · subst hop; rfl
      · rw [step_origin s op hop]; exact h
  have h := this ops (freeze s) rfl
  unfold reset; rw [h]

/-! ### C26 -/

/-- `(l, r)` is a split of the eojeol `w` within the length limits -/
def SplitOf (lMax rMax : Int) (w l r : Str) : Prop := l ≠ [] ∧ l ++ r = w ∧ (l.length : Int) ≤ lMax ∧ (r.length : Int) ≤ rMax

/-- C26: `to_lrgraph` succeeds whenever the limits are legal (and is an AssertionError otherwise), and its graph holds
    exactly the admissible splits `(l, r)` of the counted eojeols, each with the count of the eojeol `l + r`. -/
theorem C26_counts (s : EC.State) (hs : s.counter.WF) (lMax rMax : Int) (ignoreOneSyllable : Bool) :
    (1 < lMax ∧ 0 < rMax → ∃ g, toLrgraph s lMax rMax ignoreOneSyllable = .ok g ∧
      (∀ l r n, (r, n) ∈ getR g l 0 ↔ SplitOf lMax rMax (l ++ r) l r ∧ (l ++ r, n) ∈ s.counter) ∧
      (∀ l r n, r ≠ [] → ((l, n) ∈ getL g r 0 ↔ SplitOf lMax rMax (l ++ r) l r ∧ (l ++ r, n) ∈ s.counter))) ∧
    (¬ (1 < lMax ∧ 0 < rMax) → toLrgraph s lMax rMax ignoreOneSyllable = .error .assertion) := by
  constructor
  · rintro ⟨h1, h2⟩
    have : ∃ g, toLrgraph s lMax rMax ignoreOneSyllable = .ok g := by
      obtain ⟨g, hg, _⟩ := inv_ofGraph (wf2_lrOfCounter lMax rMax s.counter) lMax rMax
      exact ⟨g, by simp [toLrgraph, LR.construct, h1, h2, hg]⟩
    obtain ⟨g, hg⟩ := this
    obtain ⟨hi, hlr, _⟩ := toLrgraph_eq hg
    have key : ∀ l r n, (r, n) ∈ getR g l 0 ↔ SplitOf lMax rMax (l ++ r) l r ∧ (l ++ r, n) ∈ s.counter := by
      intro l r n
      rw [mem_getR hi, hlr, get2_lrOfCounter lMax rMax hs, Dict.mem_iff_get? hs]
      unfold SplitOf; simp
    refine ⟨g, hg, key, ?_⟩
    intro l r n hr
    rw [← key, mem_getL hi, mem_getR hi, hi.tr, if_neg hr]
  · intro h
    unfold toLrgraph LR.construct
    by_cases h1 : lMax > 1
    · rw [if_neg (by omega), if_pos (by omega)]
    · rw [if_pos (by omega)]

/-- C26: converting back gives exactly the counted eojeols that have an admissible split, with their counts (and the
    right total). -/
theorem C26_back (s : EC.State) (hs : s.counter.WF) (lMax rMax : Int) (i : Bool) (g : LR.State)
    (hg : toLrgraph s lMax rMax i = .ok g) (resetGraph : Bool) :
    ∃ c, toEojeolCounter g resetGraph = .ok c ∧ c.counter.WF ∧ c.countSum = Dict.sumI c.counter ∧
      ∀ w n, (w, n) ∈ c.counter ↔ (w, n) ∈ s.counter ∧ 1 ≤ w.length ∧ (w.length : Int) ≤ lMax + rMax := by
  obtain ⟨hi, hlr, ho⟩ := toLrgraph_eq hg
  have hlim : 1 < lMax ∧ 0 < rMax := by
    apply Classical.byContradiction
    intro h
    rw [(C26_counts s hs lMax rMax i).2 h] at hg; cases hg
  refine ⟨⟨counterOf (lrOfCounter lMax rMax s.counter), Dict.sumI (counterOf (lrOfCounter lMax rMax s.counter)), 0⟩, ?_, ?_, rfl, ?_⟩
  · unfold toEojeolCounter
    rw [ho, hlr]
    cases resetGraph <;> rfl
  · show Dict.WF (counterOf _)
    rw [counterOf_eq]; exact Dict.wf_ofList _
  · intro w n
    have hwf : Dict.WF (counterOf (lrOfCounter lMax rMax s.counter)) := by rw [counterOf_eq]; exact Dict.wf_ofList _
    show (w, n) ∈ counterOf _ ↔ _
    rw [Dict.mem_iff_get? hwf, Dict.mem_iff_get? hs, counterOf_eq]
    have w2 := wf2_lrOfCounter lMax rMax s.counter
    have hfl := wf_flat w2.outer w2.inner
    have hmem : ∀ l r v, ((l, r), v) ∈ flat (lrOfCounter lMax rMax s.counter) ↔
        (l ≠ [] ∧ (l.length : Int) ≤ lMax ∧ (r.length : Int) ≤ rMax) ∧ Dict.get? s.counter (l ++ r) = some v := by
      intro l r v
      rw [Dict.mem_iff_get? hfl, get?_flat w2.outer, get2_lrOfCounter lMax rMax hs]
    rw [get?_foldl_set _ (fun k => (Dict.get? s.counter k).getD 0)]
    · constructor
      · intro h
        split at h
        · rename_i hx
          obtain ⟨x, hx, e⟩ := hx
          obtain ⟨⟨⟨l, r⟩, v⟩, hm, rfl⟩ := List.mem_map.1 hx
          dsimp only at e; subst e
          obtain ⟨⟨a, b, c⟩, d⟩ := (hmem l r v).1 hm
          rw [d] at h; cases h
          have := List.length_pos_iff.2 a
          exact ⟨d, by simp; omega, by simp; omega⟩
        · cases h
      · rintro ⟨h1, h2, h3⟩
        rw [if_pos, h1]
        · rfl
        · let k := min w.length lMax.toNat
          have hk : (w.take k, w.drop k) = (w.take k, w.drop k) := rfl
          refine ⟨(w.take k ++ w.drop k, n), List.mem_map.2 ⟨((w.take k, w.drop k), n), (hmem _ _ _).2 ⟨⟨?_, ?_, ?_⟩, ?_⟩, rfl⟩, ?_⟩
          · intro h
            have := congrArg List.length h
            rw [List.length_take, List.length_nil] at this
            omega
          · rw [List.length_take]; omega
          · rw [List.length_drop]; omega
          · rw [List.take_append_drop]; exact h1
          · exact List.take_append_drop _ _
    · intro x hx
      obtain ⟨⟨⟨l, r⟩, v⟩, hm, rfl⟩ := List.mem_map.1 hx
      rw [((hmem l r v).1 hm).2]; rfl

private theorem constructGraph_flat (lMax rMax : Int) (sents : List Str) : constructGraph lMax rMax sents = ((sents.flatMap splitWs).flatMap (fun w => splits lMax rMax w)).foldl
      (fun g p => nadd g p.1 p.2 (p.1.length : Int)) [] := by
  have hstrip : ∀ w ∈ sents.flatMap splitWs, strip w = w := by
    intro w hw
    obtain ⟨x, _, hx⟩ := List.mem_flatMap.1 hw
    have hns := splitWs_nospace hx
    have h1 : lstrip w = w := by
      unfold lstrip
      cases w with
      | nil => rfl
      | cons c w => rw [List.dropWhile_cons, if_neg (by simp [hns c (by simp)])]
    unfold strip
    rw [h1]
    apply rstrip_eq_self
    intro c hc
    exact hns c (List.mem_of_getLast? hc)
  have e1 : constructGraph lMax rMax sents = (sents.flatMap splitWs).foldl (fun g word =>
      (splits lMax rMax (strip word)).foldl (fun g p => nadd g p.1 p.2 (p.1.length : Int)) g) [] := by
    unfold constructGraph
    have : ∀ (g : Nested Str), sents.foldl (fun g sent => (splitWs sent).foldl (fun g word =>
        (splits lMax rMax (strip word)).foldl (fun g p => nadd g p.1 p.2 (p.1.length : Int)) g) g) g =
        (sents.flatMap splitWs).foldl (fun g word =>
        (splits lMax rMax (strip word)).foldl (fun g p => nadd g p.1 p.2 (p.1.length : Int)) g) g := by
      clear hstrip
      induction sents with
      | nil => intro g; rfl
      | cons x xs ih => intro g; rw [List.foldl_cons, ih, List.flatMap_cons, List.foldl_append]
    exact this []
  rw [e1]
  revert hstrip
  generalize sents.flatMap splitWs = ws
  intro hstrip
  have : ∀ (g : Nested Str), ws.foldl (fun g word =>
        (splits lMax rMax (strip word)).foldl (fun g p => nadd g p.1 p.2 (p.1.length : Int)) g) g =
      (ws.flatMap (fun w => splits lMax rMax w)).foldl (fun g p => nadd g p.1 p.2 (p.1.length : Int)) g := by
    induction ws with
    | nil => intro g; rfl
    | cons x xs ih =>
      intro g
      rw [List.foldl_cons, ih (fun w hw => hstrip w (by simp [hw])), List.flatMap_cons, List.foldl_append, hstrip x (by simp)]
  exact this []

/-- C26 (deviation): `LRGraph(sents=...)` does not count splits: every occurrence of a word adds the length of `l`, so
    `count(l, r)` is `len(l)` times the number of occurrences of `l + r`. -/
theorem C26_sents_weighted (sents : List Str) (hne : sents ≠ []) (lMax rMax : Int) (s : LR.State)
    (hs : LR.construct [] sents lMax rMax = .ok s) (l r : Str) (h : SplitOf lMax rMax (l ++ r) l r) (hocc : l ++ r ∈ sents.flatMap splitWs) :
    (r, (l.length : Int) * ((sents.flatMap splitWs).count (l ++ r) : Int)) ∈ getR s l 0 := by
  obtain ⟨hi, _, _, _, _, hlr⟩ := construct_inv wf2_nil hs
  rw [if_neg hne] at hlr
  rw [mem_getR hi, hlr]
  have hflat := constructGraph_flat lMax rMax sents
  rw [hflat]
  have hsome := isSome_get2_foldl_nadd ((sents.flatMap splitWs).flatMap (fun w => splits lMax rMax w)) (fun p => p.1) (fun p => p.2)
    (fun p => (p.1.length : Int)) [] l r
  have hval := getD_get2_foldl_nadd ((sents.flatMap splitWs).flatMap (fun w => splits lMax rMax w)) (fun p => p.1) (fun p => p.2)
    (fun p => (p.1.length : Int)) [] l r
  have hmem : (get2 (((sents.flatMap splitWs).flatMap (fun w => splits lMax rMax w)).foldl
      (fun g p => nadd g p.1 p.2 (p.1.length : Int)) []) l r).isSome = true :=
    hsome.2 (Or.inr ⟨(l, r), List.mem_flatMap.2 ⟨l ++ r, hocc, mem_splits.2 h⟩, rfl, rfl⟩)
  have hsum : ∀ ws : List Str, (((ws.flatMap (fun w => splits lMax rMax w)).filter
      (fun p => decide (p.1 = l ∧ p.2 = r))).map (fun p => (p.1.length : Int))).sum = (l.length : Int) * (ws.count (l ++ r) : Int) := by
    intro ws
    induction ws with
    | nil => simp
    | cons w ws ih =>
      rw [List.flatMap_cons, List.filter_append, List.map_append, List.sum_append, ih, List.count_cons]
      have hone : (((splits lMax rMax w).filter (fun p => decide (p.1 = l ∧ p.2 = r))).map (fun p => (p.1.length : Int))).sum =
          if w = l ++ r then (l.length : Int) else 0 := by
        have hf : (splits lMax rMax w).filter (fun p => decide (p.1 = l ∧ p.2 = r)) = if w = l ++ r then [(l, r)] else [] := by
          have hnd := (splits_nodup lMax rMax w).filter (fun p => decide (p.1 = l ∧ p.2 = r))
          have hall : ∀ p ∈ (splits lMax rMax w).filter (fun p => decide (p.1 = l ∧ p.2 = r)), p = (l, r) := by
            rintro ⟨a, b⟩ hp
            have := (List.mem_filter.1 hp).2
            simp at this; rw [this.1, this.2]
          by_cases hw : w = l ++ r
          · rw [if_pos hw]
            have hin : (l, r) ∈ (splits lMax rMax w).filter (fun p => decide (p.1 = l ∧ p.2 = r)) :=
              List.mem_filter.2 ⟨mem_splits.2 ⟨h.1, hw.symm, h.2.2.1, h.2.2.2⟩, by simp⟩
            revert hnd hall hin
            generalize (splits lMax rMax w).filter (fun p => decide (p.1 = l ∧ p.2 = r)) = ps
            intro hnd hall hin
            match ps with
            | [] => simp at hin
            | [x] => rw [hall x (by simp)]
            | x :: y :: rest =>
              have e1 := hall x (by simp)
              have e2 := hall y (by simp)
              subst e1; subst e2
              simp at hnd
          · rw [if_neg hw]
            apply List.eq_nil_iff_forall_not_mem.2
            intro p hp
            have := hall p hp
            subst this
            exact hw (mem_splits.1 (List.mem_filter.1 hp).1).2.1.symm
        rw [hf]; split <;> simp
      rw [hone]
      by_cases hw : w = l ++ r
      · simp [hw]; ring
      · simp [hw]
  rw [hsum] at hval
  have h0 : get2 ([] : Nested Str) l r = none := rfl
  rw [h0] at hval
  obtain ⟨v, hv⟩ := Option.isSome_iff_exists.1 hmem
  rw [hv] at hval ⊢
  simp only [Option.getD_some, Option.getD_none] at hval
  rw [hval]; simp

/-- C26 (deviation), exactly: the graph built from sentences lists precisely the admissible splits of the words that
    occur, each with `len(l)` times the number of occurrences. -/
theorem C26_sents_exact (sents : List Str) (hne : sents ≠ []) (lMax rMax : Int) (s : LR.State)
    (hs : LR.construct [] sents lMax rMax = .ok s) (l r : Str) (n : Int) :
    (r, n) ∈ getR s l 0 ↔ SplitOf lMax rMax (l ++ r) l r ∧ l ++ r ∈ sents.flatMap splitWs ∧
      n = (l.length : Int) * ((sents.flatMap splitWs).count (l ++ r) : Int) := by
  obtain ⟨hi, _, _, _, _, hlr⟩ := construct_inv wf2_nil hs
  rw [if_neg hne] at hlr
  constructor
  · intro hm
    have hm' := hm
    rw [mem_getR hi, hlr, constructGraph_flat] at hm'
    have hsome := (isSome_get2_foldl_nadd ((sents.flatMap splitWs).flatMap (fun w => splits lMax rMax w)) (fun p => p.1) (fun p => p.2)
      (fun p => (p.1.length : Int)) [] l r).1 (by rw [hm']; rfl)
    rcases hsome with h | ⟨⟨a, b⟩, hp, rfl, rfl⟩
    · cases h
    · obtain ⟨w, hw, hp⟩ := List.mem_flatMap.1 hp
      have h1 := mem_splits.1 hp
      have hsp : SplitOf lMax rMax (a ++ b) a b := ⟨h1.1, rfl, h1.2.2.1, h1.2.2.2⟩
      have hocc : a ++ b ∈ sents.flatMap splitWs := by rw [h1.2.1]; exact hw
      have h2 := C26_sents_weighted sents hne lMax rMax s hs a b hsp hocc
      rw [mem_getR hi] at hm h2
      rw [hm] at h2
      exact ⟨hsp, hocc, Option.some.inj h2⟩
  · rintro ⟨h, hocc, rfl⟩
    exact C26_sents_weighted sents hne lMax rMax s hs l r h hocc

/-! ### C27 -/

private theorem line_fields {l r : Str} {c : Int} (hl : Writable l) (hr : r = [] ∨ Writable r) :
    splitWs (LR.saveLine l (r, c) ++ ['\n']) = if r = [] then [l, intStr c] else [l, r, intStr c] := by
  have hsp : isSpace ' ' = true := by decide
  have hnl : isSpace '\n' = true := by decide
  have hc := intStr_word c
  have step : ∀ (w s : Str), Writable w → ∀ sp, isSpace sp = true → splitWs (w ++ sp :: s) = w :: splitWs s := by
    intro w s hw sp hs
    unfold splitWs
    rw [splitGo_nospace_append w _ [] hw.2]
    simp only [List.nil_append, splitGo, hs, if_true, if_neg hw.1]
  have e : LR.saveLine l (r, c) ++ ['\n'] = l ++ ' ' :: (r ++ ' ' :: (intStr c ++ '\n' :: [])) := by
    simp [LR.saveLine]
  rw [e, step l _ hl _ hsp]
  rcases hr with rfl | hr
  · rw [if_pos rfl]
    have : splitWs ([] ++ ' ' :: (intStr c ++ '\n' :: [])) = splitWs (intStr c ++ '\n' :: []) := by
      simp [splitWs, splitGo, hsp]
    rw [this, step _ _ hc _ hnl]; rfl
  · rw [if_neg hr.1, step r _ hr _ hsp, step _ _ hc _ hnl]; rfl

private theorem line_nonl {l r : Str} {c : Int} (hl : Writable l) (hr : r = [] ∨ Writable r) :
    '\n' ∉ LR.saveLine l (r, c) ∧ '\r' ∉ LR.saveLine l (r, c) := by
  have h1 := nospace_nl hl.2
  have h2 := nospace_nl (intStr_word c).2
  have h3 : '\n' ∉ r ∧ '\r' ∉ r := by
    rcases hr with rfl | hr
    · simp
    · exact nospace_nl hr.2
  have a1 : '\n' ≠ ' ' := by decide
  have a2 : '\r' ≠ ' ' := by decide
  simp [LR.saveLine, h1, h2, h3, a1, a2]

/-- what a finished group does to `_lr_origin` -/
private def flush (o : Nested Str) (l : Str) (rdict : Dict Str Int) : Nested Str := if rdict = [] then o else Dict.set o l rdict

private theorem loadLine_ok {o : Nested Str} {l0 l r : Str} {d : Dict Str Int} {c : Int} (hl : Writable l) (hr : r = [] ∨ Writable r) :
    LR.loadLine o l0 d (LR.saveLine l (r, c) ++ ['\n']) =
      .ok (if l = l0 then (o, l, Dict.set d r c) else (flush o l0 d, l, Dict.set [] r c)) := by
  unfold LR.loadLine
  rw [line_fields hl hr]
  have hp := parseInt_intStr c
  by_cases hre : r = []
  · subst hre
    rw [if_pos rfl]
    by_cases e : l = l0
    · subst e; simp [hp]
    · by_cases hd : d = []
      · simp [e, hp, hd, flush]
      · simp [e, hp, hd, flush]
  · rw [if_neg hre]
    by_cases e : l = l0
    · subst e; simp [hp]
    · by_cases hd : d = []
      · simp [e, hp, hd, flush]
      · simp [e, hp, hd, flush]

private theorem loadGo_same {o : Nested Str} {l : Str} (hl : Writable l) (xs : List (Str × Int)) (hx : ∀ x ∈ xs, x.1 = [] ∨ Writable x.1)
    (d : Dict Str Int) (rest : List Str) :
    LR.loadGo o l d (xs.map (fun rc => LR.saveLine l rc ++ ['\n']) ++ rest) =
      LR.loadGo o l (xs.foldl (fun d e => Dict.set d e.1 e.2) d) rest := by
  induction xs generalizing d with
  | nil => rfl
  | cons x xs ih =>
    obtain ⟨r, c⟩ := x
    rw [List.map_cons, List.cons_append, LR.loadGo, loadLine_ok hl (hx (r, c) (by simp)), if_pos rfl]
    exact ih (fun y hy => hx y (by simp [hy])) _

private theorem loadGo_group {o : Nested Str} {l0 l : Str} (hl : Writable l) (hne : l ≠ l0) (xs : List (Str × Int)) (hxne : xs ≠ [])
    (hx : ∀ x ∈ xs, x.1 = [] ∨ Writable x.1) (d : Dict Str Int) (rest : List Str) :
    LR.loadGo o l0 d (xs.map (fun rc => LR.saveLine l rc ++ ['\n']) ++ rest) =
      LR.loadGo (flush o l0 d) l (Dict.ofList xs) rest := by
  cases xs with
  | nil => exact absurd rfl hxne
  | cons x xs =>
    obtain ⟨r, c⟩ := x
    rw [List.map_cons, List.cons_append, LR.loadGo, loadLine_ok hl (hx (r, c) (by simp)), if_neg hne]
    exact loadGo_same hl xs (fun y hy => hx y (by simp [hy])) _ rest

/-- the keys of a graph that the file format can carry: left parts non-empty, no whitespace anywhere -/
def WritableGraph (g : Nested Str) : Prop := ∀ l t, (l, t) ∈ g → Writable l ∧ ∀ r c, (r, c) ∈ t → r = [] ∨ Writable r

private theorem loadGo_all (gs : List (Str × Dict Str Int)) (hw : WritableGraph gs) (hne : ∀ l t, (l, t) ∈ gs → t ≠ [])
    (hnd : (gs.map (·.1)).Nodup) (o : Nested Str) (l0 : Str) (d : Dict Str Int) (hl0 : l0 ∉ gs.map (·.1)) :
    LR.loadGo o l0 d (gs.flatMap (fun lt => lt.2.map (fun rc => LR.saveLine lt.1 rc ++ ['\n']))) =
      .ok (gs.foldl (fun o lt => Dict.set o lt.1 (Dict.ofList lt.2)) (flush o l0 d)) := by
  induction gs generalizing o l0 d with
  | nil => rfl
  | cons x gs ih =>
    obtain ⟨l, t⟩ := x
    rw [List.map_cons, List.nodup_cons] at hnd
    have ht := hne l t (by simp)
    obtain ⟨hl, hr⟩ := hw l t (by simp)
    rw [List.flatMap_cons, loadGo_group hl (by rintro rfl; simp at hl0) t ht (fun y hy => hr y.1 y.2 hy)]
    rw [ih (fun l t hm => hw l t (by simp [hm])) (fun l t hm => hne l t (by simp [hm])) hnd.2 _ _ _ hnd.1, List.foldl_cons]
    congr 2
    have : Dict.ofList t ≠ [] := by
      cases t with
      | nil => exact absurd rfl ht
      | cons a t =>
        intro h
        have h2 : Dict.get? (Dict.ofList (a :: t)) a.1 = none := by rw [h]; rfl
        have hk : ∀ (xs : List (Str × Int)) (d : Dict Str Int) (k : Str), k ∈ Dict.keys d →
            k ∈ Dict.keys (xs.foldl (fun d e => Dict.set d e.1 e.2) d) := by
          intro xs
          induction xs with
          | nil => intro d k hk; exact hk
          | cons y ys ih => intro d k hk; exact ih _ _ ((Dict.mem_keys_set _ _ _ _).2 (Or.inr hk))
        have := hk t (Dict.set [] a.1 a.2) a.1 ((Dict.mem_keys_set _ _ _ _).2 (Or.inl rfl))
        exact (Dict.get?_eq_none_iff _ _).1 h2 this
    unfold flush
    rw [if_neg this]

private theorem keyLe_totalPre {ν : Type} : TotalPre (fun x y : Str × ν => strLe x.1 y.1) :=
  ⟨fun _ _ _ h1 h2 => strLe_trans _ _ _ h1 h2, fun _ _ => strLe_total _ _⟩

private theorem get?_sorted {ν : Type} [DecidableEq ν] {d : Dict Str ν} (h : d.WF) (le : Str × ν → Str × ν → Bool) (k : Str) :
    Dict.WF (sorted le d) ∧ Dict.get? (sorted le d) k = Dict.get? d k := by
  have hw : Dict.WF (sorted le d) := (((sorted_perm le d).map _).nodup_iff).2 h
  refine ⟨hw, ?_⟩
  apply Option.ext; intro v
  rw [← Dict.mem_iff_get? hw, ← Dict.mem_iff_get? h, mem_sorted]

private theorem get?_map_val {ν μ : Type} (f : ν → μ) (d : Dict Str ν) (k : Str) :
    Dict.get? (d.map (fun x => (x.1, f x.2))) k = (Dict.get? d k).map f := by
  induction d with
  | nil => rfl
  | cons x d ih =>
    obtain ⟨a, b⟩ := x
    rw [List.map_cons, Dict.get?_cons, Dict.get?_cons, ih]
    split <;> rfl

theorem load_save {s : LR.State} {g : Nested Str} (ho : s.origin = some g) (hg : Plain g) (hw : WritableGraph g) (hne : g ≠ [])
    (t : LR.State) : ∃ text o, LR.save s = .ok text ∧ LR.load t text = ({ t with lr := o, rl := reverse o, origin := some o }, .ok ()) ∧
      WF2 o ∧ ∀ l r, get2 o l r = get2 g l r := by
  let le1 := fun x y : Str × Dict Str Int => strLe x.1 y.1
  let le2 := fun x y : Str × Int => strLe x.1 y.1
  let gs : List (Str × Dict Str Int) := (sorted le1 g).map (fun lt => (lt.1, sorted le2 lt.2))
  have hgs : ∀ l x, (l, x) ∈ gs → ∃ t, (l, t) ∈ g ∧ x = sorted le2 t := by
    intro l x hm
    obtain ⟨⟨l', t⟩, hm', e⟩ := List.mem_map.1 hm
    cases e
    exact ⟨t, mem_sorted.1 hm', rfl⟩
  have hgw : WritableGraph gs := by
    intro l x hm
    obtain ⟨t, ht, rfl⟩ := hgs l x hm
    exact ⟨(hw l t ht).1, fun r c h => (hw l t ht).2 r c (mem_sorted.1 h)⟩
  have hgne : ∀ l x, (l, x) ∈ gs → x ≠ [] := by
    intro l x hm
    obtain ⟨t, ht, rfl⟩ := hgs l x hm
    exact sorted_ne_nil (hg.nonempty l t ht)
  have hkeys : gs.map (·.1) = (sorted le1 g).map (·.1) := by rw [List.map_map]; rfl
  have hnd : (gs.map (·.1)).Nodup := by
    rw [hkeys]; exact (((sorted_perm le1 g).map _).nodup_iff).2 hg.outer
  have hl0 : ([] : Str) ∉ gs.map (·.1) := by
    intro hm
    obtain ⟨⟨l, x⟩, hx, e⟩ := List.mem_map.1 hm
    exact (hgw l x hx).1.1 e
  let text : Str := (sorted le1 g).flatMap (fun lt => (sorted le2 lt.2).flatMap (fun rc => LR.saveLine lt.1 rc ++ ['\n']))
  have hsave : LR.save s = .ok text := by unfold LR.save; rw [ho]
  have htext : text = (gs.flatMap (fun lt => lt.2.map (fun rc => LR.saveLine lt.1 rc))).flatMap (fun l => l ++ ['\n']) := by
    show (sorted le1 g).flatMap _ = _
    rw [List.flatMap_assoc, List.flatMap_map]
    congr 1; funext lt
    rw [List.flatMap_map]
  have hlines : fileLines text = gs.flatMap (fun lt => lt.2.map (fun rc => LR.saveLine lt.1 rc ++ ['\n'])) := by
    rw [htext, fileLines_written]
    · rw [List.map_flatMap]; congr 1; funext lt; rw [List.map_map]; rfl
    · intro l hl
      obtain ⟨⟨l', x⟩, hx, hl⟩ := List.mem_flatMap.1 hl
      obtain ⟨⟨r, c⟩, hrc, rfl⟩ := List.mem_map.1 hl
      exact line_nonl (hgw l' x hx).1 ((hgw l' x hx).2 r c hrc)
  let ys : Nested Str := gs.map (fun lt => (lt.1, Dict.ofList lt.2))
  have hgo : LR.loadGo [] [] [] (fileLines text) = .ok (Dict.ofList ys) := by
    rw [hlines, loadGo_all gs hgw hgne hnd [] [] [] hl0]
    show _ = Except.ok ((gs.map (fun lt => (lt.1, Dict.ofList lt.2))).foldl (fun d e => Dict.set d e.1 e.2) [])
    exact congrArg Except.ok (List.foldl_map (f := fun lt : Str × Dict Str Int => (lt.1, Dict.ofList lt.2)) (g := fun (d : Nested Str) e => Dict.set d e.1 e.2) (l := gs) (init := [])).symm
  have hyw : Dict.WF ys := by
    show (ys.map (·.1)).Nodup
    have : ys.map (·.1) = gs.map (·.1) := by show (gs.map _).map _ = _; rw [List.map_map]; rfl
    rw [this]; exact hnd
  have hrow : ∀ l, Dict.get? (Dict.ofList ys) l = (Dict.get? g l).map (fun t => Dict.ofList (sorted le2 t)) := by
    intro l
    rw [Dict.get?_map_ofList _ hyw]
    show Dict.get? (gs.map (fun lt => (lt.1, Dict.ofList lt.2))) l = _
    rw [get?_map_val, get?_map_val, (get?_sorted hg.outer le1 l).2]
    cases Dict.get? g l <;> rfl
  have hget : ∀ l r, get2 (Dict.ofList ys) l r = get2 g l r := by
    intro l r
    unfold get2
    rw [hrow]
    cases hgl : Dict.get? g l with
    | none => rfl
    | some t =>
      have htw := hg.inner l t (Dict.mem_of_get? hgl)
      simp only [Option.map_some, Option.bind_some]
      rw [Dict.get?_map_ofList _ (get?_sorted htw le2 r).1, (get?_sorted htw le2 r).2]
  have howf : WF2 (Dict.ofList ys) := by
    refine ⟨Dict.wf_ofList _, ?_, ?_⟩
    · intro l t hm
      rw [Dict.mem_iff_get? (Dict.wf_ofList _), hrow] at hm
      cases hgl : Dict.get? g l with
      | none => rw [hgl] at hm; cases hm
      | some t => rw [hgl] at hm; cases hm; exact Dict.wf_ofList _
    · intro l t hm he
      rw [Dict.mem_iff_get? (Dict.wf_ofList _), hrow] at hm
      cases hgl : Dict.get? g l with
      | none => rw [hgl] at hm; cases hm
      | some t' =>
        rw [hgl] at hm; cases hm
        have htw := hg.inner l t' (Dict.mem_of_get? hgl)
        obtain ⟨a, ts, hts⟩ := List.exists_cons_of_ne_nil (hg.nonempty l t' (Dict.mem_of_get? hgl))
        have h1 : Dict.get? t' a.1 = some a.2 := Dict.get?_of_mem htw (by rw [hts]; simp)
        have h2 := Dict.get?_map_ofList _ (get?_sorted htw le2 a.1).1 a.1
        have he : Dict.ofList (sorted le2 t') = [] := he
        rw [he, (get?_sorted htw le2 a.1).2, h1] at h2
        cases h2
  have hone : Dict.ofList ys ≠ [] := by
    intro h
    obtain ⟨a, ts, hts⟩ := List.exists_cons_of_ne_nil hne
    have h1 : Dict.get? g a.1 = some a.2 := Dict.get?_of_mem hg.outer (by rw [hts]; simp)
    have := hrow a.1
    rw [h, h1] at this
    cases this
  refine ⟨text, Dict.ofList ys, hsave, ?_, howf, hget⟩
  unfold LR.load
  rw [hgo]
  dsimp only
  rw [checkLrgraph, if_neg hone]

theorem counts_eq {l m : List (Str × Int)} (hp : l.Perm m) (hl : l.Pairwise (fun x y => x.2 ≥ y.2))
    (hm : m.Pairwise (fun x y => x.2 ≥ y.2)) : l.map (·.2) = m.map (·.2) := by
  refine List.Perm.eq_of_pairwise (le := fun a b : Int => a ≥ b) ?_ ?_ ?_ (hp.map _)
  · intro a b _ _ h1 h2; omega
  · rw [List.pairwise_map]; exact hl
  · rw [List.pairwise_map]; exact hm

/-- C27: save the original graph of any object and load the file into any other: the loaded object holds the same
    pairs with the same counts. Compared with the saved object after `reset_lrgraph`, every `get_r` and `get_l` lists
    the same neighbours with the same counts; the ranked counts are identical for every `topk` (only the order among
    equal counts may differ). -/
theorem C27_roundtrip (s t : LR.State) (g : Nested Str) (ho : s.origin = some g) (hg : Plain g) (hw : WritableGraph g) (hne : g ≠ []) :
    ∃ text u, LR.save s = .ok text ∧ LR.load t text = (u, .ok ()) ∧
      (∀ w, (getR u w 0).Perm (getR (reset s).1 w 0) ∧ (getL u w 0).Perm (getL (reset s).1 w 0)) ∧
      (∀ w topk, (getR u w topk).map (·.2) = (getR (reset s).1 w topk).map (·.2) ∧
        (getL u w topk).map (·.2) = (getL (reset s).1 w topk).map (·.2)) := by
  obtain ⟨text, o, hsave, hload, how, hget⟩ := load_save ho hg hw hne t
  refine ⟨text, _, hsave, hload, ?_⟩
  have hr : (reset s).1.lr = g ∧ (reset s).1.rl = reverse g := by
    unfold reset; rw [ho]; dsimp only; rw [if_neg hne, checkLrgraph, if_neg hne]; exact ⟨rfl, rfl⟩
  obtain ⟨o1, o2⟩ := reverse_spec how
  obtain ⟨g1, g2⟩ := reverse_spec hg
  have p1 : ∀ w, (sorted countLe (row o w)).Perm (sorted countLe (row g w)) := fun w =>
    (sorted_perm _ _).trans ((row_perm how hg hget w).trans (sorted_perm _ _).symm)
  have p2 : ∀ w, (sorted countLe (row (reverse o) w)).Perm (sorted countLe (row (reverse g) w)) := fun w =>
    (sorted_perm _ _).trans ((row_perm o1 g1 (fun a b => by rw [o2, g2, hget]) w).trans (sorted_perm _ _).symm)
  have hp : ∀ d : Dict Str Int, (sorted countLe d).Pairwise (fun x y => x.2 ≥ y.2) := fun d =>
    (pairwise_sorted countLe_totalPre d).imp (fun h => by simpa [countLe] using h)
  refine ⟨fun w => ⟨?_, ?_⟩, fun w topk => ⟨?_, ?_⟩⟩
  · unfold getR; rw [hr.1]; exact p1 w
  · unfold getL; rw [hr.2]; exact p2 w
  · unfold getR; rw [hr.1]
    have := counts_eq (p1 w) (hp _) (hp _)
    unfold topK; split
    · simp only [List.map_take]; rw [this]
    · exact this
  · unfold getL; rw [hr.2]
    have := counts_eq (p2 w) (hp _) (hp _)
    unfold topK; split
    · simp only [List.map_take]; rw [this]
    · exact this

/-- C27: the empty graph does not round-trip: its file is empty and loading an empty file raises IndexError. -/
theorem C27_empty (s t : LR.State) (ho : s.origin = some []) : LR.save s = .ok [] ∧ (LR.load t []).2 = .error .indexError := by
  constructor
  · unfold LR.save; rw [ho]; rfl
  · rfl

/-- C27: a frozen graph cannot be saved. -/
theorem C27_frozen (s : LR.State) : LR.save (freeze s) = .error .attributeError := rfl

/-! ### C28 -/

/-- C28: `remove_eojeol(w, k)` lowers exactly the pairs `(l, r)` with `l + r = w` and non-empty `l`: present ones lose
    `k` and disappear at 0 or below; absent ones stay absent; every other pair is untouched. Both directions agree. -/
theorem C28_remove (g : Nested Str) (hg : Plain g) (sents : List Str) (lMax rMax : Int) (s : LR.State)
    (hs : LR.construct g sents lMax rMax = .ok s) (ops : List Op) (w : Str) (k : Int) (l r : Str) (c : Int) :
    ((r, c) ∈ getR (removeEojeol (run s ops) w k) l 0 ↔
      if l ≠ [] ∧ l ++ r = w then (r, c + k) ∈ getR (run s ops) l 0 ∧ 0 < c else (r, c) ∈ getR (run s ops) l 0) ∧
    (r ≠ [] → ((l, c) ∈ getL (removeEojeol (run s ops) w k) r 0 ↔
      if l ≠ [] ∧ l ++ r = w then (l, c + k) ∈ getL (run s ops) r 0 ∧ 0 < c else (l, c) ∈ getL (run s ops) r 0)) := by
  have h := inv_run (construct_inv hg hs).1 ops
  generalize run s ops = t at *
  have h' := inv_removeEojeol h w k
  have hmain := get2_removeEojeol h w k l r
  have hR : (r, c) ∈ getR (removeEojeol t w k) l 0 ↔
      if l ≠ [] ∧ l ++ r = w then (r, c + k) ∈ getR t l 0 ∧ 0 < c else (r, c) ∈ getR t l 0 := by
    rw [mem_getR h', mem_getR h, mem_getR h, hmain]
    by_cases hc : l ≠ [] ∧ l ++ r = w
    · rw [if_pos hc, if_pos hc]
      cases get2 t.lr l r with
      | none => simp
      | some v =>
        simp only [Option.bind_some, Option.some.injEq]
        split
        · simp; omega
        · simp; omega
    · rw [if_neg hc, if_neg hc]
  refine ⟨hR, ?_⟩
  intro hr
  have e1 : (l, c) ∈ getL (removeEojeol t w k) r 0 ↔ (r, c) ∈ getR (removeEojeol t w k) l 0 := by
    rw [mem_getL h', mem_getR h', h'.tr, if_neg hr]
  have e2 : ∀ c, (l, c) ∈ getL t r 0 ↔ (r, c) ∈ getR t l 0 := by
    intro c; rw [mem_getL h, mem_getR h, h.tr, if_neg hr]
  rw [e1, e2, e2]; exact hR

/-! concrete cases -/
private def g0 : Nested Str := [("너무".toList, [("".toList, 2), ("나".toList, 3)]), ("너".toList, [("무".toList, 2), ("무나".toList, 3)]), ("너무나".toList, [("".toList, 3)])]

example : Plain g0 := wf2_of_check (by decide +kernel)
example : ∃ s, LR.construct g0 [] 10 9 = .ok s ∧
    getL (run s [.removeEojeol "너무나".toList 1]) "나".toList 0 = [("너무".toList, 2)] ∧
    getR (run s [.addPair "없".toList "음".toList 1, .removeEojeol "너무나".toList 3, .reset]) "너무".toList 1 = [("나".toList, 3)] := by
  refine ⟨_, rfl, ?_, ?_⟩ <;> decide +kernel
example : ∃ s, LR.construct g0 [] 10 9 = .ok s ∧ (addPair s "없".toList "음".toList 1).2 = .error .keyError := by
  refine ⟨_, rfl, ?_⟩; decide +kernel
example : ∃ g, toLrgraph { counter := [("너무나".toList, 3), ("너무".toList, 2)], countSum := 5 } 2 1 = .ok g ∧
    getR g "너무".toList 0 = [("나".toList, 3), ([], 2)] ∧
    (∃ c, toEojeolCounter g = .ok c ∧ c.counter = [("너무나".toList, 3), ("너무".toList, 2)]) := by
  refine ⟨_, rfl, ?_, _, rfl, ?_⟩ <;> decide +kernel
example : ∃ s, LR.construct [] ["너무나".toList] 10 9 = .ok s ∧ getR s "너무".toList 0 = [("나".toList, 2)] := by
  refine ⟨_, rfl, ?_⟩; decide +kernel

example : WritableGraph g0 := by
  intro l t hm
  have h : ∀ x ∈ g0, (x.1 ≠ [] ∧ ∀ c ∈ x.1, isSpace c = false) ∧ ∀ y ∈ x.2, y.1 = [] ∨ (y.1 ≠ [] ∧ ∀ c ∈ y.1, isSpace c = false) := by decide +kernel
  exact ⟨(h (l, t) hm).1, fun r c hr => (h (l, t) hm).2 (r, c) hr⟩
example : ∃ s text u, LR.construct g0 [] 10 9 = .ok s ∧ LR.save s = .ok text ∧
    text = "너 무 2\n너 무나 3\n너무  2\n너무 나 3\n너무나  3\n".toList ∧ LR.load {} text = (u, .ok ()) ∧ getL u "나".toList 0 = [("너무".toList, 3)] := by
  refine ⟨_, _, _, rfl, rfl, ?_, rfl, ?_⟩ <;> decide +kernel

end Props
