import Verif.Model.LRHeap
import Verif.Props.C24Ops
/-! C89: several `LRGraph` objects: independent when they hold different dicts, entangled when built on the same one. -/
namespace Props
open Py Nested LR LRHeap

/-- no two graphs hold the same dict -/
def Separate (w : World) : Prop :=
  (∀ (i : Nat) (o : Obj), w.objs[i]? = some o → o.ref < w.dicts.length) ∧
  ∀ (i j : Nat) (o p : Obj), w.objs[i]? = some o → w.objs[j]? = some p → o.ref = p.ref → i = j

/-- the calls addressed to the `i`-th graph -/
def callsTo (i : Nat) (cs : List (Nat × Op)) : List Op := (cs.filter (fun c => decide (c.1 = i))).map (·.2)

private theorem deref_set {w : World} {ref : Nat} {x : Nested Str} {os : List Obj} (h : ref < w.dicts.length) (ref' : Nat) :
    deref { dicts := w.dicts.set ref x, objs := os } ref' = if ref' = ref then x else deref w ref' := by
  unfold deref
  simp only [List.getD_eq_getElem?_getD, List.getElem?_set]
  by_cases e : ref = ref'
  · subst e; simp [h]
  · rw [if_neg e, if_neg (fun h => e h.symm)]

private theorem deref_push {w : World} {x : Nested Str} {os : List Obj} (ref : Nat) :
    deref { dicts := w.dicts ++ [x], objs := os } ref = if ref = w.dicts.length then x else deref w ref := by
  unfold deref
  simp only [List.getD_eq_getElem?_getD]
  by_cases e : ref = w.dicts.length
  · subst e; simp
  · rw [if_neg e]
    by_cases hl : ref < w.dicts.length
    · rw [List.getElem?_append_left hl]
    · rw [List.getElem?_eq_none (by simp; omega), List.getElem?_eq_none (by omega)]

/-- what one call does to the dicts and graphs -/
private theorem call_spec {w : World} {i : Nat} {o : Obj} (ho : w.objs[i]? = some o) (hv : o.ref < w.dicts.length) (op : Op) :
    ∃ p, (call w i op).1.objs = w.objs.set i p ∧ view (call w i op).1 p = (step (view w o) op).1 ∧
      (p.ref = o.ref ∧ (call w i op).1.dicts.length = w.dicts.length ∧
        (∀ ref, ref ≠ o.ref → deref (call w i op).1 ref = deref w ref) ∨
       p.ref = w.dicts.length ∧ (call w i op).1.dicts.length = w.dicts.length + 1 ∧
        (∀ ref, ref < w.dicts.length → deref (call w i op).1 ref = deref w ref) ∧ op = .reset) := by
  unfold call
  rw [ho]
  dsimp only
  by_cases hr : rebinds (view w o) op = true
  · simp only [hr, if_true]
    refine ⟨_, rfl, ?_, Or.inr ⟨rfl, by simp, ?_, ?_⟩⟩
    · unfold view; dsimp only
      rw [deref_push, if_pos rfl]
    · intro ref hlt
      rw [deref_push, if_neg (by omega)]
    · cases op <;> simp [rebinds] at hr; rfl
  · simp only [hr]
    refine ⟨_, rfl, ?_, Or.inl ⟨rfl, by simp, ?_⟩⟩
    · unfold view; dsimp only
      simp only [Bool.false_eq_true, if_false]
      rw [deref_set hv]; simp
    · intro ref hne
      simp only [Bool.false_eq_true, if_false]
      rw [deref_set hv, if_neg hne]

private theorem call_none {w : World} {i : Nat} (h : w.objs[i]? = none) (op : Op) : (call w i op).1 = w := by
  unfold call; rw [h]

private theorem separate_call {w : World} (h : Separate w) (i : Nat) (op : Op) :
    Separate (call w i op).1 ∧ ∀ (j : Nat) (o : Obj), w.objs[j]? = some o → ∃ p, (call w i op).1.objs[j]? = some p ∧
      view (call w i op).1 p = if i = j then (step (view w o) op).1 else view w o := by
  cases ho : w.objs[i]? with
  | none =>
    rw [call_none ho]
    refine ⟨h, fun j o hj => ⟨o, hj, ?_⟩⟩
    rw [if_neg]; rintro rfl; rw [ho] at hj; cases hj
  | some o =>
    have hv := h.1 i o ho
    have hil : i < w.objs.length := (List.getElem?_eq_some_iff.1 ho).1
    obtain ⟨p, hobjs, hview, hcase⟩ := call_spec ho hv op
    have hget : ∀ j, (call w i op).1.objs[j]? = if i = j then some p else w.objs[j]? := by
      intro j; rw [hobjs, List.getElem?_set]
      by_cases e : i = j
      · subst e; simp [hil]
      · simp [e]
    have hlen : w.dicts.length ≤ (call w i op).1.dicts.length ∧ p.ref < (call w i op).1.dicts.length := by
      rcases hcase with ⟨a, b, _⟩ | ⟨a, b, _⟩ <;> omega
    have hother : ∀ (j : Nat) (q : Obj), i ≠ j → w.objs[j]? = some q → p.ref ≠ q.ref := by
      intro j q hne hq he
      rcases hcase with ⟨a, _, _⟩ | ⟨a, _, _⟩
      · exact hne (h.2 i j o q ho hq (by omega))
      · have := h.1 j q hq; omega
    refine ⟨⟨?_, ?_⟩, ?_⟩
    · intro j q hq
      rw [hget] at hq
      split at hq
      · cases hq; exact hlen.2
      · have := h.1 j q hq; omega
    · intro j k q r hq hr he
      rw [hget] at hq hr
      by_cases e1 : i = j
      · rw [if_pos e1] at hq; cases hq
        by_cases e2 : i = k
        · omega
        · rw [if_neg e2] at hr
          exact absurd he (hother k r e2 hr)
      · rw [if_neg e1] at hq
        by_cases e2 : i = k
        · rw [if_pos e2] at hr; cases hr
          exact absurd he.symm (hother j q e1 hq)
        · rw [if_neg e2] at hr
          exact h.2 j k q r hq hr he
    · intro j q hq
      rw [hget]
      by_cases e : i = j
      · subst e
        rw [ho] at hq; cases hq
        exact ⟨p, by simp, by rw [if_pos rfl]; exact hview⟩
      · refine ⟨q, by rw [if_neg e]; exact hq, ?_⟩
        rw [if_neg e]
        have hd : deref (call w i op).1 q.ref = deref w q.ref := by
          rcases hcase with ⟨_, _, c⟩ | ⟨_, _, c, _⟩
          · exact c _ (fun he => e (h.2 i j o q ho hq he.symm))
          · exact c _ (h.1 j q hq)
        unfold view
        rw [hd]

private theorem separate_calls {w : World} (h : Separate w) (cs : List (Nat × Op)) {j : Nat} {o : Obj} (hj : w.objs[j]? = some o) :
    ∃ p, (calls w cs).objs[j]? = some p ∧ view (calls w cs) p = run (view w o) (callsTo j cs) := by
  induction cs generalizing w o with
  | nil => exact ⟨o, hj, rfl⟩
  | cons c cs ih =>
    obtain ⟨i, op⟩ := c
    obtain ⟨h', hall⟩ := separate_call h i op
    obtain ⟨p, hp, hv⟩ := hall j o hj
    obtain ⟨q, hq, hqv⟩ := ih h' hp
    refine ⟨q, hq, ?_⟩
    show view (calls (call w i op).1 cs) q = _
    rw [hqv, hv]
    unfold callsTo
    by_cases e : i = j
    · rw [if_pos e, List.filter_cons_of_pos (p := fun c : Nat × Op => decide (c.1 = j)) (by simp [e])]
      rfl
    · rw [if_neg e, List.filter_cons_of_neg (p := fun c : Nat × Op => decide (c.1 = j)) (by simp [e])]

/-- C89: as long as no two graphs hold the same dict, graphs do not interfere: after any interleaving of calls on all of
    them, each answers every query as if only its own calls had been made. -/
theorem C89_independent (w : World) (h : Separate w) (cs : List (Nat × Op)) (j : Nat) (x : Str) (topk : Int) :
    LRHeap.getR (calls w cs) j x topk = LRHeap.getR (calls w (cs.filter (fun c => decide (c.1 = j)))) j x topk ∧
    LRHeap.getL (calls w cs) j x topk = LRHeap.getL (calls w (cs.filter (fun c => decide (c.1 = j)))) j x topk := by
  cases hj : w.objs[j]? with
  | none =>
    have hlen : ∀ (cs : List (Nat × Op)) (w : World), w.objs[j]? = none → (calls w cs).objs[j]? = none := by
      intro cs
      induction cs with
      | nil => intro w h; exact h
      | cons c cs ih =>
        intro w hw
        refine ih _ ?_
        have hl : (call w c.1 c.2).1.objs.length = w.objs.length := by
          unfold call
          cases w.objs[c.1]? <;> simp
        rw [List.getElem?_eq_none_iff] at hw ⊢
        show (call w c.1 c.2).1.objs.length ≤ j
        omega
    unfold LRHeap.getR LRHeap.getL
    rw [hlen _ _ hj, hlen _ _ hj]
    exact ⟨rfl, rfl⟩
  | some o =>
    obtain ⟨p, hp, hv⟩ := separate_calls h cs hj
    obtain ⟨q, hq, hv'⟩ := separate_calls h (cs.filter (fun c => decide (c.1 = j))) hj
    have e : callsTo j (cs.filter (fun c => decide (c.1 = j))) = callsTo j cs := by
      unfold callsTo; rw [List.filter_filter]; simp
    rw [e] at hv'
    unfold LRHeap.getR LRHeap.getL
    rw [hp, hq]
    dsimp only
    rw [hv, hv']
    exact ⟨rfl, rfl⟩

/-- C89: graphs built from sentences or from defaultdicts always get dicts of their own, and so does one built on a plain
    dict that no graph holds yet (or on an empty one): construction keeps all graphs separate, and the existing ones
    unchanged. -/
theorem C89_new_separate (w : World) (h : Separate w) (src : Source) (lMax rMax : Int)
    (hsrc : ∀ ref, src = .dict ref → ref < w.dicts.length ∧ ∀ (i : Nat) (o : Obj), w.objs[i]? = some o → o.ref ≠ ref) :
    Separate (new w src lMax rMax).1 ∧ ∀ i, i < w.objs.length → ∀ x topk,
      LRHeap.getR (new w src lMax rMax).1 i x topk = LRHeap.getR w i x topk ∧
      LRHeap.getL (new w src lMax rMax).1 i x topk = LRHeap.getL w i x topk := by
  have hkeep : ∀ (ds : List (Nested Str)) (ref : Nat) (s : LR.State), (∀ r, r < w.dicts.length → ds.getD r [] = w.dicts.getD r []) →
      w.dicts.length ≤ ds.length → ref < ds.length → (∀ (i : Nat) (o : Obj), w.objs[i]? = some o → o.ref ≠ ref) →
      let w' : World := { dicts := ds, objs := w.objs ++ [{ ref := ref, rl := s.rl, origin := s.origin, lMax := s.lMax, rMax := s.rMax }] }
      Separate w' ∧ ∀ i, i < w.objs.length → ∀ x topk,
        LRHeap.getR w' i x topk = LRHeap.getR w i x topk ∧ LRHeap.getL w' i x topk = LRHeap.getL w i x topk := by
    intro ds ref s hds hle hlt hne w'
    have hget : ∀ (i : Nat) (o : Obj), w'.objs[i]? = some o → (i < w.objs.length ∧ w.objs[i]? = some o) ∨ (i = w.objs.length ∧ o.ref = ref) := by
      intro i o ho
      by_cases hi : i < w.objs.length
      · rw [List.getElem?_append_left hi] at ho; exact Or.inl ⟨hi, ho⟩
      · have hlen := (List.getElem?_eq_some_iff.1 ho).1
        have hl2 : w'.objs.length = w.objs.length + 1 := by simp [w']
        have : i = w.objs.length := by omega
        subst this
        rw [List.getElem?_append_right (by omega)] at ho
        simp at ho
        exact Or.inr ⟨rfl, by rw [← ho]⟩
    refine ⟨⟨?_, ?_⟩, ?_⟩
    · intro i o ho
      show o.ref < ds.length
      rcases hget i o ho with ⟨_, h1⟩ | ⟨_, h1⟩
      · have := h.1 i o h1; omega
      · omega
    · intro i j o p ho hp he
      rcases hget i o ho with ⟨_, h1⟩ | ⟨e1, h1⟩ <;> rcases hget j p hp with ⟨_, h2⟩ | ⟨e2, h2⟩
      · exact h.2 i j o p h1 h2 he
      · exact absurd (he.trans h2) (hne i o h1)
      · exact absurd (he.symm.trans h1) (hne j p h2)
      · omega
    · intro i hi x topk
      have ho : w'.objs[i]? = w.objs[i]? := List.getElem?_append_left hi
      have hi' : w.objs[i]? = some (w.objs[i]) := List.getElem?_eq_getElem hi
      unfold LRHeap.getR LRHeap.getL
      rw [ho, hi']
      have hd : deref w' (w.objs[i]).ref = deref w (w.objs[i]).ref := hds _ (h.1 i _ hi')
      dsimp only
      unfold view
      rw [hd]
      exact ⟨rfl, rfl⟩
  have hsame : Separate w ∧ ∀ i, i < w.objs.length → ∀ x topk,
      LRHeap.getR w i x topk = LRHeap.getR w i x topk ∧ LRHeap.getL w i x topk = LRHeap.getL w i x topk :=
    ⟨h, fun _ _ _ _ => ⟨rfl, rfl⟩⟩
  have hfresh : ∀ s : LR.State, _ := fun s => hkeep (w.dicts ++ [s.lr]) w.dicts.length s
    (fun r hr => by simp only [List.getD_eq_getElem?_getD]; rw [List.getElem?_append_left hr]) (by simp) (by simp)
    (fun i o ho => by have := h.1 i o ho; omega)
  unfold new
  cases src with
  | dict ref =>
    obtain ⟨h1, h2⟩ := hsrc ref rfl
    dsimp only
    by_cases he : deref w ref = []
    · rw [if_pos he]
      cases LR.construct [] [] lMax rMax with
      | error e => exact hsame
      | ok s => exact hfresh s
    · rw [if_neg he]
      cases LR.construct (deref w ref) [] lMax rMax with
      | error e => exact hsame
      | ok s => exact hkeep w.dicts ref s (fun _ _ => rfl) (Nat.le_refl _) h1 h2
  | defaultdict g =>
    dsimp only
    cases LR.construct g [] lMax rMax with
    | error e => exact hsame
    | ok s => exact hfresh s
  | sents ss =>
    dsimp only
    cases LR.construct [] ss lMax rMax with
    | error e => exact hsame
    | ok s => exact hfresh s

/-- `g` is a plain dict the caller holds (the only dict of the world, `ref = 0`), and two graphs are built on it -/
def twoGraphs (g : Nested Str) (lMax rMax : Int) : World :=
  (new (new { dicts := [g] } (.dict 0) lMax rMax).1 (.dict 0) lMax rMax).1

private theorem twoGraphs_eq {g : Nested Str} (hg : Plain g) (hne : g ≠ []) {lMax rMax : Int} (h1 : 1 < lMax) (h2 : 0 < rMax) :
    ∃ s, LR.construct g [] lMax rMax = .ok s ∧ Inv s ∧ s.lr = g ∧ s.rl = reverse g ∧
      twoGraphs g lMax rMax = { dicts := [g], objs := [⟨0, s.rl, s.origin, s.lMax, s.rMax⟩, ⟨0, s.rl, s.origin, s.lMax, s.rMax⟩] } ∧
      s = { lr := g, rl := s.rl, origin := s.origin, lMax := s.lMax, rMax := s.rMax } ∧ s.origin = some g := by
  obtain ⟨s, hs⟩ : ∃ s, LR.construct g [] lMax rMax = .ok s := by
    obtain ⟨s, hs, _⟩ := inv_ofGraph hg lMax rMax
    exact ⟨s, by simp [LR.construct, h1, h2, hs]⟩
  obtain ⟨hi, ho, hrl, _, _, hlr⟩ := construct_inv hg hs
  rw [if_pos rfl] at hlr
  refine ⟨s, hs, hi, hlr, by rw [hrl, hlr], ?_, by rw [← hlr], by rw [ho, hlr]⟩
  have e1 : new { dicts := [g] } (.dict 0) lMax rMax =
      ({ dicts := [g], objs := [⟨0, s.rl, s.origin, s.lMax, s.rMax⟩] }, .ok ()) := by
    unfold new
    dsimp only
    rw [show deref { dicts := [g] } 0 = g from rfl, if_neg hne, hs]
    rfl
  unfold twoGraphs
  rw [e1]
  unfold new
  dsimp only
  rw [show deref { dicts := [g], objs := [⟨0, s.rl, s.origin, s.lMax, s.rMax⟩] } 0 = g from rfl, if_neg hne, hs]
  rfl

/-- the invariant kept while only the second graph is called, and never reset -/
private def Entangled (o : Obj) (w : World) : Prop :=
  ∃ d p, w.dicts = [d] ∧ w.objs = [o, p] ∧ p.ref = 0

private theorem entangled_call {o : Obj} {w : World} (h : Entangled o w) {op : Op} (hop : op ≠ .reset) :
    Entangled o (call w 1 op).1 := by
  obtain ⟨d, p, hd, ho, hp⟩ := h
  have h1 : w.objs[1]? = some p := by rw [ho]; rfl
  obtain ⟨q, hobjs, _, hcase⟩ := call_spec h1 (by rw [hp, hd]; simp) op
  rcases hcase with ⟨a, b, _⟩ | ⟨_, _, _, e⟩
  · rw [hd] at b
    obtain ⟨d', hd'⟩ := List.length_eq_one_iff.1 b
    exact ⟨d', q, hd', by rw [hobjs, ho]; rfl, a.trans hp⟩
  · exact absurd e hop

private theorem entangled_calls {o : Obj} {w : World} (h : Entangled o w) (ops : List Op) (hr : Op.reset ∉ ops) :
    Entangled o (calls w (ops.map (fun op => (1, op)))) := by
  induction ops generalizing w with
  | nil => exact h
  | cons op ops ih =>
    rw [List.mem_cons, not_or] at hr
    exact ih (entangled_call h (Ne.symm hr.1)) hr.2

/-- C89 (deviation): two graphs built on the same non-empty plain dict share their left-to-right table. While only the
    second is changed (and not reset), the first's `get_r` follows the second's, but the first's `get_l` still answers
    as right after construction; and the caller's dict changes with them. `reset_lrgraph` on the first makes both its
    directions answer as right after construction again. -/
theorem C89_shared (g : Nested Str) (hg : Plain g) (hne : g ≠ []) (lMax rMax : Int) (h1 : 1 < lMax) (h2 : 0 < rMax)
    (ops : List Op) (hr : Op.reset ∉ ops) :
    let w := calls (twoGraphs g lMax rMax) (ops.map (fun op => (1, op)))
    (∀ l topk, LRHeap.getR w 0 l topk = LRHeap.getR w 1 l topk) ∧
    (∀ l topk, LRHeap.getR w 0 l topk = LR.topK (sorted countLe (row (deref w 0) l)) topk) ∧
    (∀ r topk, LRHeap.getL w 0 r topk = LRHeap.getL (twoGraphs g lMax rMax) 0 r topk) ∧
    (∀ x topk, LRHeap.getR (call w 0 .reset).1 0 x topk = LRHeap.getR (twoGraphs g lMax rMax) 0 x topk ∧
      LRHeap.getL (call w 0 .reset).1 0 x topk = LRHeap.getL (twoGraphs g lMax rMax) 0 x topk) := by
  obtain ⟨s, hs, hi, hlr, hrl, htwo, heta, ho⟩ := twoGraphs_eq hg hne h1 h2
  intro w
  have hent : Entangled ⟨0, s.rl, s.origin, s.lMax, s.rMax⟩ w := by
    apply entangled_calls _ ops hr
    rw [htwo]
    exact ⟨g, _, rfl, rfl, rfl⟩
  obtain ⟨d, p, hd, hobj, hp⟩ := hent
  have hw : w = { dicts := [d], objs := [⟨0, s.rl, s.origin, s.lMax, s.rMax⟩, p] } := by
    cases hww : w with
    | mk a b => rw [hww] at hd hobj; dsimp only at hd hobj; rw [hd, hobj]
  rw [hw, htwo]
  refine ⟨?_, fun l topk => rfl, fun r topk => rfl, ?_⟩
  · intro l topk
    show LR.topK (sorted countLe (row d l)) topk = LR.topK (sorted countLe (row (deref _ p.ref) l)) topk
    rw [hp]; rfl
  · intro x topk
    have hreset : call { dicts := [d], objs := [⟨0, s.rl, s.origin, s.lMax, s.rMax⟩, p] } 0 .reset =
        ({ dicts := [d, g], objs := [⟨1, s.rl, s.origin, s.lMax, s.rMax⟩, p] }, .ok ()) := by
      have hst : ∀ lr : Nested Str, step { lr := lr, rl := s.rl, origin := s.origin, lMax := s.lMax, rMax := s.rMax } .reset =
          ({ lr := g, rl := s.rl, origin := s.origin, lMax := s.lMax, rMax := s.rMax }, .ok ()) := by
        intro lr
        show reset _ = _
        unfold reset
        rw [ho]; dsimp only
        rw [if_neg hne, checkLrgraph, if_neg hne, ← hrl]
      have hrb : ∀ lr : Nested Str, rebinds { lr := lr, rl := s.rl, origin := s.origin, lMax := s.lMax, rMax := s.rMax } .reset = true := by
        intro lr
        unfold rebinds
        rw [ho]; dsimp only
        simp [hne]
      unfold call
      simp only [List.getElem?_cons_zero, view]
      rw [hst]
      simp only [hrb, if_true]
      rfl
    rw [hreset]
    exact ⟨rfl, rfl⟩

/-- C89 (deviation): so the two directions of a graph can come apart: after the *second* graph removes a pair `(l, r)`
    with a positive count completely, the *first* no longer lists `r` after `l`, yet still lists `l` before `r`. -/
theorem C89_shared_broken (g : Nested Str) (hg : Plain g) (lMax rMax : Int) (h1 : 1 < lMax) (h2 : 0 < rMax)
    (l r : Str) (c : Int) (hr : r ≠ []) (hc : get2 g l r = some c) :
    let w := (call (twoGraphs g lMax rMax) 1 (.removePair l r c)).1
    (∀ n, (r, n) ∉ LRHeap.getR w 0 l 0) ∧ (l, c) ∈ LRHeap.getL w 0 r 0 := by
  have hne : g ≠ [] := by rintro rfl; cases hc
  obtain ⟨s, hs, hi, hlr, hrl, htwo, heta, ho⟩ := twoGraphs_eq hg hne h1 h2
  obtain ⟨a, _, b, _⟩ := C89_shared g hg hne lMax rMax h1 h2 [.removePair l r c] (by simp)
  intro w
  have hrem := (C28_remove_pair g hg [] lMax rMax s hs [] l r c l r)
  constructor
  · intro n hm
    have e : LRHeap.getR w 0 l 0 = LR.getR (removePair s l r c) l 0 := by
      have := a l 0
      refine this.trans ?_
      show LRHeap.getR (call (twoGraphs g lMax rMax) 1 (.removePair l r c)).1 1 l 0 = _
      rw [htwo, heta]
      rfl
    rw [e] at hm
    have := ((hrem n).1.1 hm)
    rw [if_pos ⟨rfl, rfl⟩] at this
    have h3 := this.1
    have hrun : run s [] = s := rfl
    rw [hrun, mem_getR hi, hlr, hc] at h3
    have := Option.some.inj h3
    omega
  · have e := b r 0
    show (l, c) ∈ LRHeap.getL (calls (twoGraphs g lMax rMax) ([Op.removePair l r c].map (fun op => (1, op)))) 0 r 0
    rw [e, htwo]
    have : LRHeap.getL { dicts := [g], objs := [⟨0, s.rl, s.origin, s.lMax, s.rMax⟩, ⟨0, s.rl, s.origin, s.lMax, s.rMax⟩] } 0 r 0 =
        LR.getL s r 0 := rfl
    rw [this, mem_getL hi, hi.tr, if_neg hr, hlr, hc]

/-! concrete cases -/
private def ex89 : Nested Str := [("너".toList, [("무".toList, 2)]), ("너무".toList, [("".toList, 2)])]

example : Plain ex89 := wf2_of_check (by decide +kernel)
example : get2 ex89 "너".toList "무".toList = some 2 := by decide +kernel
example : LRHeap.getR (call (twoGraphs ex89 10 9) 1 (.removeEojeol "너무".toList 1)).1 0 "너".toList = [("무".toList, 1)] ∧
    LRHeap.getL (call (twoGraphs ex89 10 9) 1 (.removeEojeol "너무".toList 1)).1 0 "무".toList = [("너".toList, 2)] := by decide +kernel
example : Separate { dicts := [ex89] } := ⟨fun i o h => by simp at h, fun i j o p h => by simp at h⟩
example : LRHeap.getL (calls (new (new { dicts := [ex89] } (.dict 0)).1 (.defaultdict ex89)).1
    [(1, .removeEojeol "너무".toList 1), (0, .removeEojeol "너무".toList 2), (1, .addPair "너".toList "무".toList 5)]) 1 "무".toList =
    [("너".toList, 6)] := by decide +kernel

end Props
