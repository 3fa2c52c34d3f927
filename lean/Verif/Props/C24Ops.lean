import Verif.Props.C24_C28
/-! C24/C25/C28 continued: the exact effect of the remaining public graph operations. -/
namespace Props
open Py Nested LR

theorem addPair_present {t : LR.State} (h : Inv t) {l r : Str} {c : Int} (k : Int) (hc : get2 t.lr l r = some c) :
    (addPair t l r k).2 = .ok () ∧
      ∀ l' r', get2 (addPair t l r k).1.lr l' r' = if l' = l ∧ r' = r then some (c + k) else get2 t.lr l' r' := by
  unfold addPair
  cases hb : bump t.lr l r k with
  | error e => have := (bump_error hb).2; rw [hc] at this; cases this
  | ok lr =>
    obtain ⟨v, hv, hget, _⟩ := bump_ok hb
    rw [hc] at hv; cases hv
    have hget' : ∀ l' r', get2 lr l' r' = if l' = l ∧ r' = r then some (c + k) else get2 t.lr l' r' := by
      intro l' r'
      rw [hget]
      by_cases e : l = l' ∧ r = r'
      · obtain ⟨rfl, rfl⟩ := e; simp
      · rw [if_neg e, if_neg (fun e' : l' = l ∧ r' = r => e ⟨e'.1.symm, e'.2.symm⟩)]
    dsimp only
    by_cases hr : r = []
    · rw [if_pos hr]; exact ⟨rfl, hget'⟩
    · rw [if_neg hr]
      cases hb2 : bump t.rl r l k with
      | error e => have := (bump_error hb2).2; rw [h.tr, if_neg hr, hc] at this; cases this
      | ok rl => exact ⟨rfl, hget'⟩

theorem addPair_absent {t : LR.State} {l r : Str} (k : Int) (hn : get2 t.lr l r = none) :
    addPair t l r k = (t, .error .keyError) := by
  unfold addPair
  cases hb : bump t.lr l r k with
  | error e => have := (bump_error hb).1; subst this; rfl
  | ok x => obtain ⟨v, hv, _⟩ := bump_ok hb; rw [hn] at hv; cases hv

private theorem addPairs_prefix (ps rest : List (Str × Str)) (hnd : ps.Nodup) (k : Int) :
    ∀ {t : LR.State}, Inv t → (∀ p ∈ ps, (get2 t.lr p.1 p.2).isSome) →
      ∃ u, Inv u ∧ addPairs t k (ps ++ rest) = addPairs u k rest ∧
        ∀ l r, get2 u.lr l r = if (l, r) ∈ ps then (get2 t.lr l r).map (· + k) else get2 t.lr l r := by
  induction ps with
  | nil => intro t h _; exact ⟨t, h, rfl, fun l r => by simp⟩
  | cons p ps ih =>
    intro t h hp
    obtain ⟨l0, r0⟩ := p
    obtain ⟨c, hc⟩ := Option.isSome_iff_exists.1 (hp (l0, r0) (by simp))
    obtain ⟨h1, h2⟩ := addPair_present h k hc
    have hi := inv_addPair h l0 r0 k
    rw [List.nodup_cons] at hnd
    cases hA : addPair t l0 r0 k with
    | mk t' res =>
      rw [hA] at h1 h2 hi
      dsimp only at h1 h2 hi
      subst h1
      obtain ⟨u, hu, he, hg⟩ := ih hnd.2 hi (fun p hp' => by
        rw [h2]
        split
        · rfl
        · exact hp p (by simp [hp']))
      refine ⟨u, hu, ?_, ?_⟩
      · rw [List.cons_append, addPairs]
        rw [hA]; exact he
      · intro l r
        rw [hg, h2]
        by_cases e : l = l0 ∧ r = r0
        · obtain ⟨rfl, rfl⟩ := e
          rw [if_neg hnd.1, if_pos ⟨rfl, rfl⟩, if_pos (by simp), hc]; rfl
        · rw [if_neg e]
          have : (l, r) ∈ (l0, r0) :: ps ↔ (l, r) ∈ ps := by
            rw [List.mem_cons]
            constructor
            · rintro (h | h)
              · cases h; exact absurd ⟨rfl, rfl⟩ e
              · exact h
            · exact Or.inr
          by_cases hm : (l, r) ∈ ps
          · rw [if_pos hm, if_pos (this.2 hm)]
          · rw [if_neg hm, if_neg (fun h => hm (this.1 h))]

private theorem cuts_split {w l r : Str} (hl : l ≠ []) (hw : l ++ r = w) :
    ∃ ps qs, cuts w = ps ++ (l, r) :: qs ∧ ∀ a b, (a, b) ∈ ps ↔ a ≠ [] ∧ a ++ b = w ∧ a.length < l.length := by
  subst hw
  have hpos := List.length_pos_iff.2 hl
  let F : Nat → Str × Str := fun i => ((l ++ r).take (i + 1), (l ++ r).drop (i + 1))
  refine ⟨(List.range (l.length - 1)).map F, ((List.range r.length).map (l.length + ·)).map F, ?_, ?_⟩
  · have e : (l ++ r).length = (l.length - 1) + (1 + r.length) := by simp; omega
    show (List.range (l ++ r).length).map F = _
    rw [e, List.range_add, List.map_append, List.range_add, List.map_append, List.map_append]
    congr 1
    have e1 : F (l.length - 1) = (l, r) := by
      show ((l ++ r).take _, (l ++ r).drop _) = _
      rw [show l.length - 1 + 1 = l.length by omega]; simp
    simp only [List.map_map]
    show [F (l.length - 1 + 0)] ++ _ = _
    rw [Nat.add_zero, e1, List.singleton_append]
    congr 1
    apply List.map_congr_left
    intro i _
    show F (l.length - 1 + (1 + i)) = F (l.length + i)
    congr 1; omega
  · intro a b
    constructor
    · intro hm
      obtain ⟨i, hi, e⟩ := List.mem_map.1 hm
      rw [List.mem_range] at hi
      have e1 : (l ++ r).take (i + 1) = a := congrArg Prod.fst e
      have e2 : (l ++ r).drop (i + 1) = b := congrArg Prod.snd e
      have hlen : a.length = i + 1 := by rw [← e1, List.length_take]; simp; omega
      refine ⟨List.ne_nil_of_length_pos (by omega), by rw [← e1, ← e2, List.take_append_drop], by omega⟩
    · rintro ⟨ha, hab, hlt⟩
      have := List.length_pos_iff.2 ha
      refine List.mem_map.2 ⟨a.length - 1, List.mem_range.2 (by omega), ?_⟩
      show ((l ++ r).take _, (l ++ r).drop _) = _
      rw [show a.length - 1 + 1 = a.length by omega, ← hab]; simp

/-- C24: `add_eojeol(w, k)` on any reachable graph. If the graph holds every pair `(l, r)` with `l + r = w` and
    non-empty `l`, the call succeeds and adds `k` to exactly those pairs. Otherwise it raises KeyError at the shortest
    `l` whose pair is missing, after adding `k` to the pairs with a shorter `l` and to nothing else. -/
theorem C24_add_eojeol (g : Nested Str) (hg : Plain g) (sents : List Str) (lMax rMax : Int) (s : LR.State)
    (hs : LR.construct g sents lMax rMax = .ok s) (ops : List Op) (w : Str) (k : Int) :
    ((∀ l r, l ≠ [] → l ++ r = w → ∃ c, (r, c) ∈ getR (run s ops) l 0) →
      (addEojeol (run s ops) w k).2 = .ok () ∧
      ∀ l r c, (r, c) ∈ getR (addEojeol (run s ops) w k).1 l 0 ↔
        if l ≠ [] ∧ l ++ r = w then (r, c - k) ∈ getR (run s ops) l 0 else (r, c) ∈ getR (run s ops) l 0) ∧
    (∀ l₀ r₀, l₀ ≠ [] → l₀ ++ r₀ = w → (∀ c, (r₀, c) ∉ getR (run s ops) l₀ 0) →
      (∀ l r, l ≠ [] → l ++ r = w → l.length < l₀.length → ∃ c, (r, c) ∈ getR (run s ops) l 0) →
      (addEojeol (run s ops) w k).2 = .error .keyError ∧
      ∀ l r c, (r, c) ∈ getR (addEojeol (run s ops) w k).1 l 0 ↔
        if l ≠ [] ∧ l ++ r = w ∧ l.length < l₀.length then (r, c - k) ∈ getR (run s ops) l 0
        else (r, c) ∈ getR (run s ops) l 0) := by
  have h := inv_run (construct_inv hg hs).1 ops
  generalize run s ops = t at *
  have lift : ∀ {u : LR.State}, Inv u → ∀ {P : Prop} [Decidable P] (l r : Str) (c : Int),
      (get2 u.lr l r = if P then (get2 t.lr l r).map (· + k) else get2 t.lr l r) →
      ((r, c) ∈ getR u l 0 ↔ if P then (r, c - k) ∈ getR t l 0 else (r, c) ∈ getR t l 0) := by
    intro u hu P _ l r c hget
    rw [mem_getR hu, mem_getR h, mem_getR h, hget]
    by_cases hP : P
    · rw [if_pos hP, if_pos hP]
      cases get2 t.lr l r with
      | none => simp
      | some v => simp only [Option.map_some, Option.some.injEq]; omega
    · rw [if_neg hP, if_neg hP]
  constructor
  · intro hall
    obtain ⟨u, hu, he, hget⟩ := addPairs_prefix (cuts w) [] (cuts_nodup w) k h (fun p hp => by
      obtain ⟨c, hc⟩ := hall p.1 p.2 (mem_cuts.1 hp).1 (mem_cuts.1 hp).2
      rw [mem_getR h] at hc; rw [hc]; rfl)
    rw [List.append_nil] at he
    have hA : addEojeol t w k = (u, .ok ()) := he
    rw [hA]
    refine ⟨rfl, fun l r c => lift hu l r c ?_⟩
    rw [hget]
    by_cases hm : l ≠ [] ∧ l ++ r = w
    · rw [if_pos hm, if_pos (mem_cuts.2 hm)]
    · rw [if_neg hm, if_neg (fun h => hm (mem_cuts.1 h))]
  · intro l₀ r₀ hl₀ hw₀ hmiss hpre
    obtain ⟨ps, qs, hcut, hps⟩ := cuts_split hl₀ hw₀
    have hnd : ps.Nodup := by
      have := cuts_nodup w
      rw [hcut] at this
      exact (List.nodup_append.1 this).1
    obtain ⟨u, hu, he, hget⟩ := addPairs_prefix ps ((l₀, r₀) :: qs) hnd k h (fun p hp => by
      have hp' := (hps p.1 p.2).1 hp
      obtain ⟨c, hc⟩ := hpre p.1 p.2 hp'.1 hp'.2.1 hp'.2.2
      rw [mem_getR h] at hc; rw [hc]; rfl)
    have hnone : get2 u.lr l₀ r₀ = none := by
      rw [hget, if_neg (fun hm => absurd ((hps l₀ r₀).1 hm).2.2 (by omega))]
      cases hv : get2 t.lr l₀ r₀ with
      | none => rfl
      | some v => exact absurd ((mem_getR h).2 hv) (hmiss v)
    have hA : addEojeol t w k = (u, .error .keyError) := by
      show addPairs t k (cuts w) = _
      rw [hcut, he, addPairs, addPair_absent k hnone]
    rw [hA]
    refine ⟨rfl, fun l r c => lift hu l r c ?_⟩
    rw [hget]
    by_cases hm : l ≠ [] ∧ l ++ r = w ∧ l.length < l₀.length
    · rw [if_pos hm, if_pos ((hps l r).2 hm)]
    · rw [if_neg hm, if_neg (fun h => hm ((hps l r).1 h))]

/-- C28: `remove_lr_pair(l, r, k)` touches that pair only, seen from both sides: a present pair loses `k` and disappears
    at 0 or below, an absent one stays absent. -/
theorem C28_remove_pair (g : Nested Str) (hg : Plain g) (sents : List Str) (lMax rMax : Int) (s : LR.State)
    (hs : LR.construct g sents lMax rMax = .ok s) (ops : List Op) (l r : Str) (k : Int) (l' r' : Str) (c : Int) :
    ((r', c) ∈ getR (removePair (run s ops) l r k) l' 0 ↔
      if l' = l ∧ r' = r then (r', c + k) ∈ getR (run s ops) l' 0 ∧ 0 < c else (r', c) ∈ getR (run s ops) l' 0) ∧
    (r' ≠ [] → ((l', c) ∈ getL (removePair (run s ops) l r k) r' 0 ↔
      if l' = l ∧ r' = r then (l', c + k) ∈ getL (run s ops) r' 0 ∧ 0 < c else (l', c) ∈ getL (run s ops) r' 0)) := by
  have h := inv_run (construct_inv hg hs).1 ops
  generalize run s ops = t at *
  have h' := inv_removePair h l r k
  have hmain := (lower_spec h.lr l r k).2 l' r'
  have hR : (r', c) ∈ getR (removePair t l r k) l' 0 ↔
      if l' = l ∧ r' = r then (r', c + k) ∈ getR t l' 0 ∧ 0 < c else (r', c) ∈ getR t l' 0 := by
    rw [mem_getR h', mem_getR h, mem_getR h]
    show get2 (lower t.lr l r k) l' r' = _ ↔ _
    rw [hmain]
    by_cases hc : l = l' ∧ r = r'
    · obtain ⟨rfl, rfl⟩ := hc
      rw [if_pos ⟨rfl, rfl⟩, if_pos ⟨rfl, rfl⟩]
      cases get2 t.lr l r with
      | none => simp
      | some v =>
        simp only [Option.bind_some, Option.some.injEq]
        split
        · simp; omega
        · simp; omega
    · rw [if_neg hc, if_neg (fun e : l' = l ∧ r' = r => hc ⟨e.1.symm, e.2.symm⟩)]
  refine ⟨hR, ?_⟩
  intro hr
  have e1 : (l', c) ∈ getL (removePair t l r k) r' 0 ↔ (r', c) ∈ getR (removePair t l r k) l' 0 := by
    rw [mem_getL h', mem_getR h', h'.tr, if_neg hr]
  have e2 : ∀ c, (l', c) ∈ getL t r' 0 ↔ (r', c) ∈ getR t l' 0 := by
    intro c; rw [mem_getL h, mem_getR h, h.tr, if_neg hr]
  rw [e1, e2, e2]; exact hR

private theorem addPairs_limits (k : Int) (ps : List (Str × Str)) : ∀ t : LR.State,
    (addPairs t k ps).1.lMax = t.lMax ∧ (addPairs t k ps).1.rMax = t.rMax := by
  have hone : ∀ (t : LR.State) (l r : Str), (addPair t l r k).1.lMax = t.lMax ∧ (addPair t l r k).1.rMax = t.rMax := by
    intro t l r
    unfold addPair
    cases bump t.lr l r k with
    | error e => exact ⟨rfl, rfl⟩
    | ok lr =>
      dsimp only
      by_cases hr : r = []
      · rw [if_pos hr]; exact ⟨rfl, rfl⟩
      · rw [if_neg hr]
        cases bump t.rl r l k <;> exact ⟨rfl, rfl⟩
  induction ps with
  | nil => intro t; exact ⟨rfl, rfl⟩
  | cons p ps ih =>
    intro t
    rw [addPairs]
    have := hone t p.1 p.2
    cases hA : addPair t p.1 p.2 k with
    | mk u res =>
      rw [hA] at this
      cases res with
      | error e => exact this
      | ok _ => exact ⟨(ih u).1.trans this.1, (ih u).2.trans this.2⟩

private theorem step_limits (t : LR.State) (op : Op) : (step t op).1.lMax = t.lMax ∧ (step t op).1.rMax = t.rMax := by
  cases op with
  | addPair l r c =>
    have := addPairs_limits c [(l, r)] t
    rw [addPairs] at this
    cases hA : addPair t l r c with
    | mk u res =>
      rw [hA] at this
      show (addPair t l r c).1.lMax = _ ∧ (addPair t l r c).1.rMax = _
      rw [hA]
      cases res <;> exact this
  | addEojeol w c => exact addPairs_limits c _ t
  | removePair l r c => exact ⟨rfl, rfl⟩
  | removeEojeol w c =>
    show (removeEojeol t w c).lMax = _ ∧ (removeEojeol t w c).rMax = _
    unfold removeEojeol
    generalize cuts w = ps
    induction ps generalizing t with
    | nil => exact ⟨rfl, rfl⟩
    | cons p ps ih => exact ih (removePair t p.1 p.2 c)
  | reset =>
    show (reset t).1.lMax = _ ∧ (reset t).1.rMax = _
    unfold reset
    cases t.origin with
    | none => exact ⟨rfl, rfl⟩
    | some g =>
      dsimp only
      by_cases hg : g = []
      · rw [if_pos hg]; exact ⟨rfl, rfl⟩
      · rw [if_neg hg]
        cases checkLrgraph g <;> exact ⟨rfl, rfl⟩
  | freeze => exact ⟨rfl, rfl⟩

private theorem run_limits (ops : List Op) : ∀ t : LR.State, (run t ops).lMax = t.lMax ∧ (run t ops).rMax = t.rMax := by
  induction ops with
  | nil => intro t; exact ⟨rfl, rfl⟩
  | cons op ops ih =>
    intro t
    have h1 := ih (step t op).1
    have h2 := step_limits t op
    exact ⟨h1.1.trans h2.1, h1.2.trans h2.2⟩

private theorem construct_limits {g : Nested Str} {sents : List Str} {lMax rMax : Int} {s : LR.State}
    (hs : LR.construct g sents lMax rMax = .ok s) : lMax > 1 ∧ rMax > 0 := by
  unfold LR.construct at hs
  by_cases h1 : lMax > 1
  · by_cases h2 : rMax > 0
    · exact ⟨h1, h2⟩
    · rw [if_neg (by omega), if_pos (by omega)] at hs; cases hs
  · rw [if_pos (by omega)] at hs; cases hs

private theorem construct_empty {lMax rMax : Int} (h : lMax > 1 ∧ rMax > 0) :
    LR.construct [] [] lMax rMax = .ok { lr := [], rl := [], origin := some [], lMax := lMax, rMax := rMax } := by
  simp [LR.construct, h.1, h.2, ofGraph]

/-- C25: `copy_compatified_lrgraph_origin()` after any history without `freeze` on a graph that was not empty gives a
    graph that answers every query as the source did right after construction, with the same limits and with nothing to
    reset to: its own `reset_lrgraph` changes nothing. -/
theorem C25_copy (g : Nested Str) (hg : Plain g) (sents : List Str) (lMax rMax : Int) (s : LR.State)
    (hs : LR.construct g sents lMax rMax = .ok s) (hne : ∃ l r c, (r, c) ∈ getR s l 0) (ops : List Op) (hf : Op.freeze ∉ ops) :
    ∃ u, copyOrigin (run s ops) = .ok u ∧ u.lMax = lMax ∧ u.rMax = rMax ∧
      (∀ w topk, getR u w topk = getR s w topk ∧ getL u w topk = getL s w topk) ∧
      (∀ ops', Op.freeze ∉ ops' → reset (run u ops') = (run u ops', .ok ())) := by
  obtain ⟨hi, ho, hrl, hl, hr, _⟩ := construct_inv hg hs
  obtain ⟨l, r, c, hm⟩ := hne
  have he : s.lr ≠ [] := by
    intro he
    rw [mem_getR hi, he] at hm
    cases hm
  have hlim := run_limits ops s
  have hcopy : copyOrigin (run s ops) = .ok { lr := s.lr, rl := s.rl, origin := some [], lMax := lMax, rMax := rMax } := by
    unfold copyOrigin
    rw [hlim.1, hlim.2, hl, hr, construct_empty (construct_limits hs), run_origin s ops hf, ho, hrl]
    show (match checkLrgraph s.lr with | .ok (lr, rl) => _ | .error e => _) = _
    rw [checkLrgraph, if_neg he]
  refine ⟨_, hcopy, rfl, rfl, fun w topk => ⟨rfl, rfl⟩, ?_⟩
  intro ops' hf'
  unfold reset
  rw [run_origin _ ops' hf']
  simp

/-- C25: a frozen graph cannot be copied that way (AttributeError), whatever happens after `freeze`; nor can a graph
    that was constructed empty (IndexError). -/
theorem C25_copy_raises (g : Nested Str) (hg : Plain g) (sents : List Str) (lMax rMax : Int) (s : LR.State)
    (hs : LR.construct g sents lMax rMax = .ok s) (ops ops' : List Op) :
    copyOrigin (run (freeze (run s ops)) ops') = .error .attributeError ∧
    ((∀ l r c, (r, c) ∉ getR s l 0) → Op.freeze ∉ ops → copyOrigin (run s ops) = .error .indexError) := by
  obtain ⟨hi, ho, hrl, hl, hr, _⟩ := construct_inv hg hs
  have hc := construct_empty (construct_limits hs)
  constructor
  · have hfz : ∀ (ops : List Op) (s : LR.State), s.origin = none → (run s ops).origin = none := by
      intro ops
      induction ops with
      | nil => intro s h; exact h
      | cons op ops ih =>
        intro s h
        apply ih
        by_cases hop : op = .freeze
        · subst hop; rfl
        · rw [step_origin s op hop]; exact h
    have h1 := run_limits ops s
    have h2 := run_limits ops' (freeze (run s ops))
    have h3 := hfz ops' (freeze (run s ops)) rfl
    generalize run (freeze (run s ops)) ops' = t at *
    unfold copyOrigin
    rw [h2.1, h2.2]
    show (do let base ← LR.construct [] [] (run s ops).lMax (run s ops).rMax; _) = _
    rw [h1.1, h1.2, hl, hr, hc, h3]
    rfl
  · intro hnone hf
    have h1 := run_limits ops s
    have he : s.lr = [] := by
      cases hlr : s.lr with
      | nil => rfl
      | cons x xs =>
        obtain ⟨l, t⟩ := x
        have hmem : (l, t) ∈ s.lr := by rw [hlr]; simp
        cases t with
        | nil => exact absurd rfl (hi.lr.nonempty l [] hmem)
        | cons y ys =>
          obtain ⟨r, c⟩ := y
          exfalso
          apply hnone l r c
          rw [mem_getR hi]
          unfold get2
          rw [Dict.get?_of_mem hi.lr.outer hmem]
          simp [Dict.get?_cons]
    unfold copyOrigin
    rw [h1.1, h1.2, hl, hr, hc, run_origin s ops hf, ho, he]
    rfl

/-! concrete cases -/
private def g1 : Nested Str := [("너".toList, [("무".toList, 2)]), ("너무".toList, [("".toList, 2)])]

example : Plain g1 := wf2_of_check (by decide +kernel)
example : ∃ s, LR.construct g1 [] 10 9 = .ok s ∧ (addEojeol s "너무".toList 3).2 = .ok () ∧
    getL (addEojeol s "너무".toList 3).1 "무".toList 0 = [("너".toList, 5)] := by
  refine ⟨_, rfl, ?_, ?_⟩ <;> decide +kernel
example : ∃ s, LR.construct [("너".toList, [("무나".toList, 2)])] [] 10 9 = .ok s ∧
    (addEojeol s "너무나".toList 3).2 = .error .keyError ∧
    getR (addEojeol s "너무나".toList 3).1 "너".toList 0 = [("무나".toList, 5)] := by
  refine ⟨_, rfl, ?_, ?_⟩ <;> decide +kernel
example : ∃ s u, LR.construct g1 [] 10 9 = .ok s ∧ copyOrigin (run s [.removeEojeol "너무".toList 2]) = .ok u ∧
    getR u "너".toList = [("무".toList, 2)] := by
  refine ⟨_, _, rfl, rfl, ?_⟩; decide +kernel
example : ∃ s, LR.construct g1 [] 10 9 = .ok s ∧ getR (removePair s "너".toList "무".toList 1) "너".toList = [("무".toList, 1)] := by
  refine ⟨_, rfl, ?_⟩; decide +kernel

end Props
