import Verif.Proofs.LRGraph
/-! Facts about constructed graphs and about the edges left by `removeEojeol`. -/
namespace LR
open Py Nested

theorem wf2_constructGraph (lMax rMax : Int) (sents : List Str) : WF2 (constructGraph lMax rMax sents) := by
  have h1 : ∀ (ps : List (Str × Str)) (g : Nested Str), WF2 g → WF2 (ps.foldl (fun g p => nadd g p.1 p.2 (p.1.length : Int)) g) :=
    fun ps g hg => WF2.foldl_nadd ps (fun p => p.1) (fun p => p.2) (fun p => (p.1.length : Int)) hg
  have h2 : ∀ (ws : List Str) (g : Nested Str), WF2 g → WF2 (ws.foldl (fun g word =>
      (splits lMax rMax (strip word)).foldl (fun g p => nadd g p.1 p.2 (p.1.length : Int)) g) g) := by
    intro ws
    induction ws with
    | nil => intro g hg; exact hg
    | cons w ws ih => intro g hg; exact ih _ (h1 _ g hg)
  have h3 : ∀ (ss : List Str) (g : Nested Str), WF2 g → WF2 (ss.foldl (fun g sent => (splitWs sent).foldl (fun g word =>
      (splits lMax rMax (strip word)).foldl (fun g p => nadd g p.1 p.2 (p.1.length : Int)) g) g) g) := by
    intro ss
    induction ss with
    | nil => intro g hg; exact hg
    | cons w ws ih => intro g hg; exact ih _ (h2 _ g hg)
  exact h3 sents [] wf2_nil

theorem construct_inv {g : Nested Str} (hg : WF2 g) {sents : List Str} {lMax rMax : Int} {s : State}
    (hs : construct g sents lMax rMax = .ok s) :
    Inv s ∧ s.origin = some s.lr ∧ s.rl = reverse s.lr ∧ s.lMax = lMax ∧ s.rMax = rMax ∧
      s.lr = (if sents = [] then g else constructGraph lMax rMax sents) := by
  unfold construct at hs
  split at hs
  · cases hs
  · split at hs
    · cases hs
    · split at hs
      · rename_i hse
        split at hs
        · cases hs
        · obtain ⟨s', h1, h2, h3, h4, h5, h6, h7⟩ := inv_ofGraph (wf2_constructGraph lMax rMax sents) lMax rMax
          rw [hs] at h1; cases h1
          exact ⟨h2, by rw [h4, h3], by rw [h5, h3], h6, h7, by rw [if_neg hse, h3]⟩
      · rename_i hse
        obtain ⟨s', h1, h2, h3, h4, h5, h6, h7⟩ := inv_ofGraph hg lMax rMax
        rw [hs] at h1; cases h1
        exact ⟨h2, by rw [h4, h3], by rw [h5, h3], h6, h7, by rw [if_pos (by simpa using hse), h3]⟩

theorem mem_getR {s : State} (h : Inv s) {l r : Str} {c : Int} : (r, c) ∈ getR s l 0 ↔ get2 s.lr l r = some c := by
  unfold getR topK
  rw [if_neg (by omega), mem_sorted, Dict.mem_iff_get? (h.lr.row_wf l), get2_eq_row]

theorem mem_getL {s : State} (h : Inv s) {l r : Str} {c : Int} : (l, c) ∈ getL s r 0 ↔ get2 s.rl r l = some c := by
  unfold getL topK
  rw [if_neg (by omega), mem_sorted, Dict.mem_iff_get? (h.rl.row_wf r), get2_eq_row]

theorem countLe_totalPre : TotalPre countLe := by
  constructor
  · intro a b c h1 h2; simp only [countLe, decide_eq_true_eq] at *; omega
  · intro a b; simp only [countLe, decide_eq_true_eq]; omega

/-- the entries `((l, r), count)` that `to_lrgraph` adds up -/
abbrev entries (lMax rMax : Int) (c : Dict Str Int) : Dict (Str × Str) Int :=
  c.flatMap (fun ec => (splits lMax rMax ec.1).map (fun p => (p, ec.2)))

theorem lrOfCounter_eq (lMax rMax : Int) (c : Dict Str Int) :
    lrOfCounter lMax rMax c = (entries lMax rMax c).foldl (fun g x => nadd g x.1.1 x.1.2 x.2) [] := by
  unfold lrOfCounter
  have : ∀ (g : Nested Str), c.foldl (fun g ec => (splits lMax rMax ec.1).foldl (fun g p => nadd g p.1 p.2 ec.2) g) g =
      (entries lMax rMax c).foldl (fun g x => nadd g x.1.1 x.1.2 x.2) g := by
    induction c with
    | nil => intro g; rfl
    | cons x c ih => intro g; rw [List.foldl_cons, ih]; unfold entries; rw [List.flatMap_cons, List.foldl_append, List.foldl_map]
  exact this []

theorem entries_wf (lMax rMax : Int) {c : Dict Str Int} (hc : c.WF) : Dict.WF (entries lMax rMax c) := by
  induction c with
  | nil => exact Dict.wf_nil
  | cons x c ih =>
    simp only [Dict.WF, Dict.keys, List.map_cons, List.nodup_cons] at hc
    have ih := ih hc.2
    unfold Dict.WF Dict.keys entries at *
    rw [List.flatMap_cons, List.map_append, List.nodup_append]
    refine ⟨?_, ih, ?_⟩
    · rw [List.map_map]
      have : (fun (y : (Str × Str) × Int) => y.1) ∘ (fun p : Str × Str => (p, x.2)) = id := rfl
      rw [this, List.map_id]; exact splits_nodup _ _ _
    · intro p hp q hq hpq
      subst hpq
      obtain ⟨⟨p1, c1⟩, hm1, rfl⟩ := List.mem_map.1 hp
      obtain ⟨p1', hs1, e1⟩ := List.mem_map.1 hm1
      obtain ⟨⟨p2, c2⟩, hm2, e2⟩ := List.mem_map.1 hq
      obtain ⟨y, hy, hm3⟩ := List.mem_flatMap.1 hm2
      obtain ⟨p2', hs2, e3⟩ := List.mem_map.1 hm3
      have e1 : p1' = p1 := congrArg Prod.fst e1
      have e3 : p2' = p2 := congrArg Prod.fst e3
      have e2 : p2 = p1 := e2
      subst e1; subst e3; subst e2
      obtain ⟨l, r⟩ := p2'
      have a1 := (mem_splits.1 hs1).2.1
      have a2 := (mem_splits.1 hs2).2.1
      exact hc.1 (List.mem_map.2 ⟨y, hy, a2.symm.trans a1⟩)

theorem get2_lrOfCounter (lMax rMax : Int) {c : Dict Str Int} (hc : c.WF) (l r : Str) (n : Int) :
    get2 (lrOfCounter lMax rMax c) l r = some n ↔
      (l ≠ [] ∧ (l.length : Int) ≤ lMax ∧ (r.length : Int) ≤ rMax) ∧ Dict.get? c (l ++ r) = some n := by
  rw [lrOfCounter_eq, get2_foldl_nadd _ (entries_wf lMax rMax hc)]
  have h0 : get2 ([] : Nested Str) l r = none := rfl
  rw [h0]
  have key : Dict.get? (entries lMax rMax c) (l, r) = some n ↔
      (l ≠ [] ∧ (l.length : Int) ≤ lMax ∧ (r.length : Int) ≤ rMax) ∧ Dict.get? c (l ++ r) = some n := by
    rw [← Dict.mem_iff_get? (entries_wf lMax rMax hc), ← Dict.mem_iff_get? hc, entries, List.mem_flatMap]
    constructor
    · rintro ⟨⟨w, v⟩, hm, h⟩
      obtain ⟨⟨l', r'⟩, hs, e⟩ := List.mem_map.1 h
      cases e
      obtain ⟨a, b, c', d⟩ := mem_splits.1 hs
      dsimp only at b; subst b
      exact ⟨⟨a, c', d⟩, hm⟩
    · rintro ⟨⟨a, b, d⟩, hm⟩
      exact ⟨(l ++ r, n), hm, List.mem_map.2 ⟨(l, r), mem_splits.2 ⟨a, rfl, b, d⟩, rfl⟩⟩
  rw [← key]
  cases Dict.get? (entries lMax rMax c) (l, r) <;> simp

theorem wf2_lrOfCounter (lMax rMax : Int) (c : Dict Str Int) : WF2 (lrOfCounter lMax rMax c) := by
  rw [lrOfCounter_eq]
  exact WF2.foldl_nadd _ (fun x : (Str × Str) × Int => x.1.1) (fun x => x.1.2) (fun x => x.2) wf2_nil

theorem toLrgraph_eq {s : EC.State} {lMax rMax : Int} {i : Bool} {g : State} (h : toLrgraph s lMax rMax i = .ok g) :
    Inv g ∧ g.lr = lrOfCounter lMax rMax s.counter ∧ g.origin = some (lrOfCounter lMax rMax s.counter) := by
  obtain ⟨h1, h2, _, _, _, h3⟩ := construct_inv (wf2_lrOfCounter lMax rMax s.counter) h
  rw [if_pos rfl] at h3
  exact ⟨h1, h3, by rw [h2, h3]⟩

theorem get?_foldl_set {ν : Type} (xs : List (Str × ν)) (f : Str → ν) (hf : ∀ x ∈ xs, x.2 = f x.1) (d : Dict Str ν) (k : Str) :
    Dict.get? (xs.foldl (fun d x => Dict.set d x.1 x.2) d) k = if ∃ x ∈ xs, x.1 = k then some (f k) else Dict.get? d k := by
  induction xs generalizing d with
  | nil => simp
  | cons x xs ih =>
    rw [List.foldl_cons, ih (fun y hy => hf y (by simp [hy])), Dict.get?_set]
    by_cases h : ∃ y ∈ xs, y.1 = k
    · rw [if_pos h, if_pos (by obtain ⟨y, hy, e⟩ := h; exact ⟨y, by simp [hy], e⟩)]
    · rw [if_neg h]
      by_cases hx : x.1 = k
      · rw [if_pos hx, if_pos ⟨x, by simp, hx⟩, hf x (by simp), hx]
      · rw [if_neg hx, if_neg]
        rintro ⟨y, hy, e⟩
        rcases List.mem_cons.1 hy with rfl | hy
        · exact hx e
        · exact h ⟨y, hy, e⟩

theorem counterOf_eq (g : Nested Str) :
    counterOf g = ((flat g).map (fun x => (x.1.1 ++ x.1.2, x.2))).foldl (fun d x => Dict.set d x.1 x.2) [] := by
  unfold counterOf
  rw [List.foldl_map, foldl_flat]


theorem get2_removeEojeol {t : State} (h : Inv t) (w : Str) (k : Int) (l r : Str) : get2 (removeEojeol t w k).lr l r =
    if l ≠ [] ∧ l ++ r = w then (get2 t.lr l r).bind (fun v => if v - k ≤ 0 then none else some (v - k)) else get2 t.lr l r := by
  have key : ∀ (ps : List (Str × Str)) (t : State), Inv t → ps.Nodup →
      get2 (ps.foldl (fun s p => removePair s p.1 p.2 k) t).lr l r =
        if (l, r) ∈ ps then (get2 t.lr l r).bind (fun v => if v - k ≤ 0 then none else some (v - k)) else get2 t.lr l r := by
    intro ps
    induction ps with
    | nil => intro t _ _; simp
    | cons p ps ih =>
      intro t ht hnd
      rw [List.nodup_cons] at hnd
      rw [List.foldl_cons, ih _ (inv_removePair ht _ _ _) hnd.2]
      have hl : get2 (removePair t p.1 p.2 k).lr l r = if p.1 = l ∧ p.2 = r then
          (get2 t.lr p.1 p.2).bind (fun v => if v - k ≤ 0 then none else some (v - k)) else get2 t.lr l r :=
        (lower_spec ht.lr p.1 p.2 k).2 l r
      rw [hl]
      by_cases e : p = (l, r)
      · subst e
        rw [if_neg hnd.1, if_pos ⟨rfl, rfl⟩, if_pos (by simp)]
      · rw [if_neg (fun h : p.1 = l ∧ p.2 = r => e (Prod.ext h.1 h.2))]
        have : (l, r) ∈ p :: ps ↔ (l, r) ∈ ps := by
          rw [List.mem_cons]; exact ⟨fun h => h.resolve_left (fun h => e h.symm), Or.inr⟩
        by_cases hm : (l, r) ∈ ps
        · rw [if_pos hm, if_pos (this.2 hm)]
        · rw [if_neg hm, if_neg (fun h => hm (this.1 h))]
  have := key (cuts w) t h (cuts_nodup w)
  unfold removeEojeol
  rw [this]
  by_cases hm : (l, r) ∈ cuts w
  · rw [if_pos hm, if_pos (mem_cuts.1 hm)]
  · rw [if_neg hm, if_neg (fun h => hm (mem_cuts.2 h))]

end LR
