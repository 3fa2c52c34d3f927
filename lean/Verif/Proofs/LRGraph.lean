import Verif.Model.LRGraph
import Verif.Proofs.EojeolCounter
/-! Lemmas about the LRGraph model. -/
namespace LR
open Py Nested

theorem bump_ok {g g' : Nested Str} {a b : Str} {c : Int} (h : bump g a b c = .ok g') :
    ∃ v, get2 g a b = some v ∧
      (∀ a' b', get2 g' a' b' = if a = a' ∧ b = b' then some (v + c) else get2 g a' b') ∧ (WF2 g → WF2 g') := by
  unfold bump at h
  cases ha : Dict.get? g a with
  | none => rw [ha] at h; cases h
  | some t =>
    rw [ha] at h; dsimp only at h
    cases hb : Dict.get? t b with
    | none => rw [hb] at h; cases h
    | some v =>
      rw [hb] at h; dsimp only at h
      have hr : row g a = t := by simp [row, ha]
      refine ⟨v, by simp [get2, ha, hb], ?_, ?_⟩
      · intro a' b'
        cases h
        rw [get2_eq_row, get2_eq_row, row_set]
        by_cases e : a = a'
        · subst e
          rw [if_pos rfl, Dict.get?_set, hr]
          by_cases e2 : b = b'
          · subst e2; simp
          · simp [e2]
        · simp [e]
      · intro hw
        cases h
        exact hw.set a ((hw.inner a t (Dict.mem_of_get? ha)).set b _) (set_ne_nil _ _ _)

theorem bump_error {g : Nested Str} {a b : Str} {c : Int} {e : PyErr} (h : bump g a b c = .error e) :
    e = .keyError ∧ get2 g a b = none := by
  unfold bump at h
  cases ha : Dict.get? g a with
  | none => rw [ha] at h; cases h; exact ⟨rfl, by simp [get2, ha]⟩
  | some t =>
    rw [ha] at h; dsimp only at h
    cases hb : Dict.get? t b with
    | none => rw [hb] at h; cases h; exact ⟨rfl, by simp [get2, ha, hb]⟩
    | some v => rw [hb] at h; cases h

theorem lower_spec {g : Nested Str} (hw : WF2 g) (a b : Str) (c : Int) :
    WF2 (lower g a b c) ∧ ∀ a' b', get2 (lower g a b c) a' b' =
      if a = a' ∧ b = b' then (get2 g a b).bind (fun v => if v - c ≤ 0 then none else some (v - c)) else get2 g a' b' := by
  unfold lower
  cases ha : Dict.get? g a with
  | none =>
    refine ⟨hw, fun a' b' => ?_⟩
    show get2 g a' b' = _
    split
    · rename_i h; obtain ⟨rfl, rfl⟩ := h; simp [get2, ha]
    · rfl
  | some t =>
    dsimp only
    have hr : row g a = t := by simp [row, ha]
    have htw : Dict.WF t := hw.inner a t (Dict.mem_of_get? ha)
    cases hb : Dict.get? t b with
    | none =>
      refine ⟨hw, fun a' b' => ?_⟩
      show get2 g a' b' = _
      split
      · rename_i h; obtain ⟨rfl, rfl⟩ := h; simp [get2, ha, hb]
      · rfl
    | some v =>
      dsimp only
      have hg : get2 g a b = some v := by simp [get2, ha, hb]
      rw [hg, Option.bind_some]
      by_cases hv : v - c ≤ 0
      · rw [if_pos hv, if_pos hv]
        by_cases he : (Dict.erase t b).length ≤ 0
        · rw [if_pos he]
          have he' : Dict.erase t b = [] := List.length_eq_zero_iff.1 (by omega)
          refine ⟨hw.erase a, fun a' b' => ?_⟩
          rw [get2_eq_row, get2_eq_row, row_erase]
          by_cases e : a = a'
          · subst e
            rw [if_pos rfl]
            have := Dict.get?_erase t b b'
            rw [he'] at this
            rw [hr]
            by_cases e2 : b = b'
            · simp [e2]
            · rw [if_neg e2] at this; simp [e2, ← this]
          · simp [e]
        · rw [if_neg he]
          refine ⟨hw.set a (htw.erase b) (fun h => he (by rw [h]; simp)), fun a' b' => ?_⟩
          rw [get2_eq_row, get2_eq_row, row_set]
          by_cases e : a = a'
          · subst e
            rw [if_pos rfl, Dict.get?_erase, hr]
            by_cases e2 : b = b'
            · simp [e2]
            · simp [e2]
          · simp [e]
      · rw [if_neg hv, if_neg hv]
        refine ⟨hw.set a (htw.set b _) (set_ne_nil _ _ _), fun a' b' => ?_⟩
        rw [get2_eq_row, get2_eq_row, row_set]
        by_cases e : a = a'
        · subst e
          rw [if_pos rfl, Dict.get?_set, hr]
          by_cases e2 : b = b'
          · simp [e2]
          · simp [e2]
        · simp [e]

theorem reverse_eq (g : Nested Str) :
    reverse g = (((flat g).filter (fun x => decide (x.1.2 ≠ []))).map (fun x => ((x.1.2, x.1.1), x.2))).foldl
      (fun g x => nadd g x.1.1 x.1.2 x.2) [] := by
  unfold reverse
  rw [List.foldl_map, List.foldl_filter, foldl_flat]
  simp only [ne_eq, decide_not, Bool.not_eq_eq_eq_not, Bool.not_true, decide_eq_false_iff_not]
  congr 1
  funext rl lt
  congr 1
  funext rl rc
  by_cases h : rc.1 = [] <;> simp [h]

theorem reverse_spec {g : Nested Str} (hw : WF2 g) :
    WF2 (reverse g) ∧ ∀ r l, get2 (reverse g) r l = if r = [] then none else get2 g l r := by
  rw [reverse_eq]
  have hf := wf_flat hw.outer hw.inner
  have hx : Dict.WF (((flat g).filter (fun x => decide (x.1.2 ≠ []))).map (fun x => ((x.1.2, x.1.1), x.2))) := by
    unfold Dict.WF Dict.keys
    rw [List.map_map]
    have h2 : (fun (x : (Str × Str) × Int) => x.1) ∘ (fun x : (Str × Str) × Int => ((x.1.2, x.1.1), x.2)) = (fun p : Str × Str => (p.2, p.1)) ∘ (fun x => x.1) := rfl
    rw [h2, ← List.map_map]
    have : List.Nodup _ := hf.filter (fun x => decide (x.1.2 ≠ []))
    exact this.map _ (by rintro ⟨a, b⟩ ⟨c, d⟩ hne e; apply hne; cases e; rfl)
  refine ⟨WF2.foldl_nadd _ (fun x : (Str × Str) × Int => x.1.1) (fun x => x.1.2) (fun x => x.2) wf2_nil, ?_⟩
  intro r l
  rw [get2_foldl_nadd _ hx]
  have hget : Dict.get? (((flat g).filter (fun x => decide (x.1.2 ≠ []))).map (fun x => ((x.1.2, x.1.1), x.2))) (r, l) =
      if r = [] then none else get2 g l r := by
    apply Option.ext
    intro v
    rw [← Dict.mem_iff_get? hx, List.mem_map]
    constructor
    · rintro ⟨⟨⟨l', r'⟩, c⟩, hm, e⟩
      cases e
      rw [List.mem_filter] at hm
      have hne : r' ≠ [] := by simpa using hm.2
      rw [if_neg hne, ← get?_flat hw.outer]
      exact Dict.get?_of_mem hf hm.1
    · intro h
      by_cases hr : r = []
      · rw [if_pos hr] at h; cases h
      · rw [if_neg hr, ← get?_flat hw.outer] at h
        exact ⟨((l, r), v), List.mem_filter.2 ⟨Dict.mem_of_get? h, by simpa using hr⟩, rfl⟩
  rw [hget]
  have h0 : get2 ([] : Nested Str) r l = none := rfl
  rw [h0]
  split <;> simp_all

/-- the state invariant -/
structure Inv (s : State) : Prop where
  lr : WF2 s.lr
  rl : WF2 s.rl
  tr : ∀ r l, get2 s.rl r l = if r = [] then none else get2 s.lr l r
  orig : ∀ g, s.origin = some g → WF2 g

theorem Inv.ofCheck {s : State} {g : Nested Str} (hw : WF2 g) (ho : ∀ g', s.origin = some g' → WF2 g')
    (h1 : s.lr = g) (h2 : s.rl = reverse g) : Inv s := by
  obtain ⟨hr, ht⟩ := reverse_spec hw
  subst h1
  exact ⟨hw, h2 ▸ hr, h2 ▸ ht, ho⟩

theorem inv_ofGraph {g : Nested Str} (hw : WF2 g) (lMax rMax : Int) : ∃ s, ofGraph g lMax rMax = .ok s ∧ Inv s ∧
    s.lr = g ∧ s.origin = some g ∧ s.rl = reverse g ∧ s.lMax = lMax ∧ s.rMax = rMax := by
  unfold ofGraph
  by_cases hg : g = []
  · subst hg
    rw [if_pos rfl]
    refine ⟨_, rfl, ?_, rfl, rfl, rfl, rfl, rfl⟩
    exact Inv.ofCheck wf2_nil (by intro g' h; cases h; exact wf2_nil) rfl rfl
  · rw [if_neg hg, checkLrgraph, if_neg hg]
    refine ⟨_, rfl, ?_, rfl, rfl, rfl, rfl, rfl⟩
    exact Inv.ofCheck hw (by intro g' h; cases h; exact hw) rfl rfl

theorem inv_addPair {s : State} (h : Inv s) (l r : Str) (c : Int) : Inv (addPair s l r c).1 := by
  unfold addPair
  cases hb : bump s.lr l r c with
  | error e => exact h
  | ok lr =>
    obtain ⟨v, hv, hget, hwf⟩ := bump_ok hb
    dsimp only
    by_cases hr : r = []
    · rw [if_pos hr]
      refine ⟨hwf h.lr, h.rl, ?_, h.orig⟩
      intro r' l'
      show get2 s.rl r' l' = if r' = [] then none else get2 lr l' r'
      rw [h.tr, hget]
      by_cases hr' : r' = []
      · simp [hr']
      · rw [if_neg hr', if_neg hr', if_neg (by rintro ⟨_, e⟩; exact hr' (e ▸ hr))]
    · rw [if_neg hr]
      cases hb2 : bump s.rl r l c with
      | error e =>
        exfalso
        have := (bump_error hb2).2
        rw [h.tr, if_neg hr, hv] at this
        cases this
      | ok rl =>
        obtain ⟨v2, hv2, hget2, hwf2⟩ := bump_ok hb2
        have : v2 = v := by rw [h.tr, if_neg hr, hv] at hv2; cases hv2; rfl
        subst this
        refine ⟨hwf h.lr, hwf2 h.rl, ?_, h.orig⟩
        intro r' l'
        show get2 rl r' l' = if r' = [] then none else get2 lr l' r'
        rw [hget, hget2, h.tr]
        by_cases e1 : r = r' ∧ l = l'
        · obtain ⟨rfl, rfl⟩ := e1; simp [hr]
        · rw [if_neg e1, if_neg (fun e : l = l' ∧ r = r' => e1 ⟨e.2, e.1⟩)]

theorem inv_addPairs {s : State} (h : Inv s) (c : Int) (ps : List (Str × Str)) : Inv (addPairs s c ps).1 := by
  induction ps generalizing s with
  | nil => exact h
  | cons p ps ih =>
    unfold addPairs
    have := inv_addPair h p.1 p.2 c
    split
    · rename_i s' heq; rw [heq] at this; exact ih this
    · rename_i s' e heq; rw [heq] at this; exact this

theorem inv_removePair {s : State} (h : Inv s) (l r : Str) (c : Int) : Inv (removePair s l r c) := by
  obtain ⟨w1, g1⟩ := lower_spec h.lr l r c
  obtain ⟨w2, g2⟩ := lower_spec h.rl r l c
  refine ⟨w1, w2, ?_, h.orig⟩
  intro r' l'
  show get2 (lower s.rl r l c) r' l' = if r' = [] then none else get2 (lower s.lr l r c) l' r'
  rw [g1, g2, h.tr, h.tr]
  by_cases e1 : r = r' ∧ l = l'
  · obtain ⟨rfl, rfl⟩ := e1
    rw [if_pos ⟨rfl, rfl⟩]
    by_cases hr : r = []
    · simp [hr]
    · simp [hr]
  · rw [if_neg e1, if_neg (fun e : l = l' ∧ r = r' => e1 ⟨e.2, e.1⟩)]

theorem inv_removeEojeol {s : State} (h : Inv s) (w : Str) (c : Int) : Inv (removeEojeol s w c) := by
  unfold removeEojeol
  generalize cuts w = ps
  induction ps generalizing s with
  | nil => exact h
  | cons p ps ih => exact ih (inv_removePair h _ _ _)

theorem inv_reset {s : State} (h : Inv s) : Inv (reset s).1 := by
  unfold reset
  cases ho : s.origin with
  | none => exact h
  | some g =>
    dsimp only
    by_cases hg : g = []
    · rw [if_pos hg]; exact h
    · rw [if_neg hg, checkLrgraph, if_neg hg]
      exact Inv.ofCheck (h.orig g ho) (by intro g' e; cases e; exact h.orig g ho) rfl rfl

theorem inv_step {s : State} (h : Inv s) (op : Op) : Inv (step s op).1 := by
  cases op with
  | addPair l r c => exact inv_addPair h l r c
  | addEojeol w c => exact inv_addPairs h c _
  | removePair l r c => exact inv_removePair h l r c
  | removeEojeol w c => exact inv_removeEojeol h w c
  | reset => exact inv_reset h
  | freeze => exact ⟨h.lr, h.rl, h.tr, by intro g hg; cases hg⟩

theorem inv_run {s : State} (h : Inv s) (ops : List Op) : Inv (run s ops) := by
  unfold run
  induction ops generalizing s with
  | nil => exact h
  | cons op ops ih => exact ih (inv_step h op)

/-! origin bookkeeping -/

theorem addPair_origin (s : State) (l r : Str) (c : Int) : (addPair s l r c).1.origin = s.origin := by
  unfold addPair
  split
  · rfl
  · split
    · rfl
    · split <;> rfl

theorem addPairs_origin (s : State) (c : Int) (ps : List (Str × Str)) : (addPairs s c ps).1.origin = s.origin := by
  induction ps generalizing s with
  | nil => rfl
  | cons p ps ih =>
    unfold addPairs
    have := addPair_origin s p.1 p.2 c
    split
    · rename_i s' heq; rw [heq] at this; rw [ih]; exact this
    · rename_i s' e heq; rw [heq] at this; exact this

theorem removeEojeol_origin (s : State) (w : Str) (c : Int) : (removeEojeol s w c).origin = s.origin := by
  unfold removeEojeol
  generalize cuts w = ps
  induction ps generalizing s with
  | nil => rfl
  | cons p ps ih => rw [List.foldl_cons, ih]; rfl

theorem reset_origin (s : State) : (reset s).1.origin = s.origin := by
  unfold reset
  split
  · rfl
  · split
    · rfl
    · split <;> rfl

theorem step_origin (s : State) (op : Op) (h : op ≠ .freeze) : (step s op).1.origin = s.origin := by
  cases op with
  | addPair l r c => exact addPair_origin s l r c
  | addEojeol w c => exact addPairs_origin s c _
  | removePair l r c => rfl
  | removeEojeol w c => exact removeEojeol_origin s w c
  | reset => exact reset_origin s
  | freeze => exact absurd rfl h

theorem run_origin (s : State) (ops : List Op) (h : Op.freeze ∉ ops) : (run s ops).origin = s.origin := by
  unfold run
  induction ops generalizing s with
  | nil => rfl
  | cons op ops ih =>
    rw [List.foldl_cons, ih _ (fun hm => h (List.mem_cons_of_mem _ hm)), step_origin]
    rintro rfl; simp at h

/-- an empty graph without tables stays empty -/
theorem step_empty (s : State) (h : s.lr = [] ∧ s.rl = [] ∧ (s.origin = some [] ∨ s.origin = none)) (op : Op) :
    (step s op).1.lr = [] ∧ (step s op).1.rl = [] ∧ ((step s op).1.origin = some [] ∨ (step s op).1.origin = none) := by
  obtain ⟨h1, h2, h3⟩ := h
  have ap : ∀ l r c, addPair s l r c = (s, .error .keyError) := by
    intro l r c; simp [addPair, bump, h1]
  cases op with
  | addPair l r c => simp only [step, ap]; exact ⟨h1, h2, h3⟩
  | addEojeol w c =>
    simp only [step, addEojeol]
    cases cuts w with
    | nil => exact ⟨h1, h2, h3⟩
    | cons p ps => simp only [addPairs, ap]; exact ⟨h1, h2, h3⟩
  | removePair l r c => simp [step, removePair, lower, h1, h2, h3]
  | removeEojeol w c =>
    have : ∀ ps : List (Str × Str), ∀ s : State, s.lr = [] → s.rl = [] →
        (ps.foldl (fun s p => removePair s p.1 p.2 c) s).lr = [] ∧ (ps.foldl (fun s p => removePair s p.1 p.2 c) s).rl = [] := by
      intro ps
      induction ps with
      | nil => intro s h1 h2; exact ⟨h1, h2⟩
      | cons p ps ih => intro s h1 h2; exact ih _ (by simp [removePair, lower, h1]) (by simp [removePair, lower, h2])
    obtain ⟨e1, e2⟩ := this (cuts w) s h1 h2
    exact ⟨e1, e2, by simp only [step, removeEojeol_origin]; exact h3⟩
  | reset =>
    have : reset s = (s, .ok ()) := by rcases h3 with h3 | h3 <;> simp [reset, h3]
    simp only [step, this]; exact ⟨h1, h2, h3⟩
  | freeze => exact ⟨h1, h2, Or.inr rfl⟩

theorem run_empty (s : State) (ops : List Op) (h : s.lr = [] ∧ s.rl = [] ∧ (s.origin = some [] ∨ s.origin = none)) :
    (run s ops).lr = [] ∧ (run s ops).rl = [] := by
  unfold run
  induction ops generalizing s with
  | nil => exact ⟨h.1, h.2.1⟩
  | cons op ops ih => exact ih _ (step_empty s h op)

/-! cuts and splits -/

theorem mem_cuts {w l r : Str} : (l, r) ∈ cuts w ↔ l ≠ [] ∧ l ++ r = w := by
  unfold cuts
  rw [List.mem_map]
  constructor
  · rintro ⟨i, hi, e⟩
    rw [List.mem_range] at hi
    cases e
    refine ⟨?_, List.take_append_drop _ _⟩
    intro h
    have := congrArg List.length h
    rw [List.length_take, List.length_nil] at this; omega
  · rintro ⟨hl, rfl⟩
    have := List.length_pos_iff.2 hl
    refine ⟨l.length - 1, by simp; omega, ?_⟩
    have e : l.length - 1 + 1 = l.length := by omega
    rw [e]; simp

theorem mem_splits {lMax rMax : Int} {w l r : Str} :
    (l, r) ∈ splits lMax rMax w ↔ l ≠ [] ∧ l ++ r = w ∧ (l.length : Int) ≤ lMax ∧ (r.length : Int) ≤ rMax := by
  have : splits lMax rMax w = (cuts w).filter (fun p => decide ((p.1.length : Int) ≤ lMax) && decide ((p.2.length : Int) ≤ rMax)) := rfl
  rw [this, List.mem_filter, mem_cuts]
  simp [and_assoc]

theorem cuts_nodup (w : Str) : (cuts w).Nodup := by
  unfold cuts
  rw [List.nodup_iff_pairwise_ne, List.pairwise_map]
  refine List.Pairwise.imp_of_mem ?_ List.nodup_range
  intro i j hi hj hne e
  simp only [List.mem_range] at hi hj
  have := congrArg (fun p : Str × Str => p.1.length) e
  simp at this
  omega

theorem splits_nodup (lMax rMax : Int) (w : Str) : (splits lMax rMax w).Nodup := (cuts_nodup w).filter _

end LR
