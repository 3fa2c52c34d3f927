import Verif.Model.Hits
import Verif.Props.C83
import Mathlib.Algebra.BigOperators.Group.List.Basic
import Mathlib.Tactic.Linarith
import Mathlib.Tactic.Positivity
/-! C96: `EojeolPatternTrainer.train_hits` cannot be used. -/
namespace Props
open Py Nested

/-! ### proofs -/

private theorem mapM_const {α β : Type} (f : α → PyM β) (g : α → β) : ∀ (l : List α), (∀ a ∈ l, f a = .ok (g a)) → l.mapM f = .ok (l.map g)
  | [], _ => rfl
  | a :: l, h => by
    rw [List.mapM_cons, h a (List.mem_cons_self ..)]
    show (do let bs ← l.mapM f; pure (g a :: bs)) = _
    rw [mapM_const f g l (fun b hb => h b (List.mem_cons_of_mem _ hb))]
    rfl

private def S (x : Rat) (d : Dict Str Int) : Rat := (d.map (fun e => (e.2 : Rat) * x)).dedup.sum

private theorem sum_nonneg' : ∀ (l : List Rat), (∀ a ∈ l, 0 ≤ a) → 0 ≤ l.sum
  | [], _ => by simp
  | a :: l, h => by
    rw [List.sum_cons]
    have := h a (List.mem_cons_self ..)
    have := sum_nonneg' l (fun b hb => h b (List.mem_cons_of_mem _ hb))
    linarith

private theorem sum_pos' : ∀ (l : List Rat), (∀ a ∈ l, 0 ≤ a) → (∃ a ∈ l, 0 < a) → 0 < l.sum
  | [], _, h => by obtain ⟨a, h, _⟩ := h; cases h
  | a :: l, h, hp => by
    rw [List.sum_cons]
    have h1 := h a (List.mem_cons_self ..)
    have h2 := sum_nonneg' l (fun b hb => h b (List.mem_cons_of_mem _ hb))
    obtain ⟨b, hb, hb0⟩ := hp
    cases hb with
    | head => linarith
    | tail _ hb => have := sum_pos' l (fun b hb => h b (List.mem_cons_of_mem _ hb)) ⟨b, hb, hb0⟩; linarith

private theorem S_pos {x : Rat} (hx : 0 < x) {d : Dict Str Int} (hd : ∀ e ∈ d, 0 < e.2) : 0 ≤ S x d ∧ (d ≠ [] → 0 < S x d) := by
  have hall : ∀ a ∈ (d.map (fun (e : Str × Int) => (e.2 : Rat) * x)).dedup, 0 < a := by
    intro a ha
    rw [List.mem_dedup, List.mem_map] at ha
    obtain ⟨e, he, rfl⟩ := ha
    have : (0 : Rat) < (e.2 : Rat) := by exact_mod_cast hd e he
    positivity
  refine ⟨sum_nonneg' _ (fun a ha => le_of_lt (hall a ha)), fun hne => ?_⟩
  obtain ⟨e, d', rfl⟩ := List.exists_cons_of_ne_nil hne
  refine sum_pos' _ (fun a ha => le_of_lt (hall a ha)) ⟨(e.2 : Rat) * x, ?_, ?_⟩
  · rw [List.mem_dedup]; exact List.mem_map.2 ⟨e, List.mem_cons_self .., rfl⟩
  · exact hall _ (by rw [List.mem_dedup]; exact List.mem_map.2 ⟨e, List.mem_cons_self .., rfl⟩)

private theorem get?_const {ν : Type} (x : Rat) (k : Str) : ∀ (g : Dict Str ν), k ∈ Dict.keys g → Dict.get? (g.map (fun e => (e.1, x))) k = some x := by
  intro g hk
  have : ∀ y, (k, y) ∈ g.map (fun e => (e.1, x)) → y = x := by
    intro y hy; rw [List.mem_map] at hy; obtain ⟨e, _, h⟩ := hy; cases h; rfl
  cases hg : Dict.get? (g.map (fun e => (e.1, x))) k with
  | some y => rw [this y (Dict.mem_of_get? hg)]
  | none =>
    exfalso
    rw [Dict.get?_eq_none_iff] at hg
    apply hg
    unfold Dict.keys at *
    rw [List.map_map]
    exact hk

private theorem setSum_const {rank : Dict Str Rat} {x : Rat} {d : Dict Str Int} (h : ∀ e ∈ d, Dict.get? rank e.1 = some x) : Hits.setSum rank d = .ok (S x d) := by
  unfold Hits.setSum
  rw [mapM_const _ (fun (e : Str × Int) => (e.2 : Rat) * x) d (fun e he => by rw [h e he])]
  rfl

private theorem normalize_zero {g : Dict Str Rat} (h : (Dict.values g).sum = 0) (a b : Rat) : Hits.normalize g a b = .error .zeroDivision := by
  unfold Hits.normalize; rw [if_pos h]

private theorem normalize_pos {g : Dict Str Rat} (h : 0 < (Dict.values g).sum) (a b : Rat) : ∃ g', Hits.normalize g a b = .ok g' := by
  unfold Hits.normalize
  rw [if_neg (ne_of_gt h), if_neg]
  · exact ⟨_, rfl⟩
  · intro h0
    rw [List.length_eq_zero_iff] at h0
    subst h0
    exact lt_irrefl _ h

/-- **C96** `train_hits` never returns: on a trainer it raises `TypeError`, on the class it raises `NameError` at the latest when it first looks at `self.verbose`. -/
theorem C96_never (c : Hits.Call) (sumOfRank df : Rat) (maxIter : Int) :
    (∀ out, Hits.trainHits c sumOfRank df maxIter ≠ .ok out) ∧ (c = .onObject → Hits.trainHits c sumOfRank df maxIter = .error .typeError) ∧
    (∀ rl, c = .onClass none rl → Hits.trainHits c sumOfRank df maxIter = .error .nameError) ∧
    (∀ lr, lr ≠ [] → c = .onClass (some lr) none → Hits.trainHits c sumOfRank df maxIter = .error .typeError) := by
  refine ⟨fun out h => ?_, fun h => by subst h; rfl, fun rl h => by subst h; rfl, fun lr hn h => by
    subst h
    show (if lr.length = 0 then _ else _) = _
    rw [if_neg (fun h0 => hn (List.length_eq_zero_iff.1 h0))]⟩
  unfold Hits.trainHits at h
  cases c with
  | onObject => cases h
  | onClass lr rl =>
    cases lr with
    | none => cases h
    | some lr =>
      dsimp only at h
      split at h
      · cases h
      · cases rl with
        | none => cases h
        | some rl =>
          dsimp only at h
          split at h
          · cases h
          · split at h
            · cases h
            · split at h <;> cases h

/-- **C96** With the graphs of a successful training, passed to the function of the class: it divides by zero if no token was counted or none with a right part, and
    otherwise raises `NameError`. -/
theorem C96_trained (s s' : EP.State) (sents wl wr : List Str) (h : EP.train s sents wl wr = (s', .ok ())) (sumOfRank df : Rat) (hs : 0 < sumOfRank)
    (maxIter : Int) (hm : 0 < maxIter) :
    ∃ lr rl, s'.lrgraph = some lr ∧ s'.rlgraph = some rl ∧
      ((∃ l r n, r ≠ [] ∧ get2 lr l r = some n) → Hits.trainHits (.onClass (some lr) (some rl)) sumOfRank df maxIter = .error .nameError) ∧
      ((¬ ∃ l r n, r ≠ [] ∧ get2 lr l r = some n) → Hits.trainHits (.onClass (some lr) (some rl)) sumOfRank df maxIter = .error .zeroDivision) := by
  have hd : s.verbose = true → ¬ PatternDivides sents (wl = [] ∨ wr = []) := by
    intro hv hd
    have := (C83_raises s sents wl wr hv hd).1
    rw [h] at this; cases this
  obtain ⟨WL, WR, lr, rl, ht, -, hg⟩ := C83_trains s sents wl wr hd
  rw [h] at ht
  cases ht
  refine ⟨lr, rl, rfl, rfl, ?_⟩
  -- entries
  have hmemL : ∀ l d r n, (l, d) ∈ lr → (r, n) ∈ d → get2 lr l r = some n := by
    intro l d r n h1 h2
    unfold get2
    rw [Dict.get?_of_mem hg.lrWf.outer h1]
    exact Dict.get?_of_mem (hg.lrWf.inner l d h1) h2
  have hmemR : ∀ r d l n, (r, d) ∈ rl → (l, n) ∈ d → get2 lr l r = some n := by
    intro r d l n h1 h2
    rw [← hg.transpose]
    unfold get2
    rw [Dict.get?_of_mem hg.rlWf.outer h1]
    exact Dict.get?_of_mem (hg.rlWf.inner r d h1) h2
  have hpos : ∀ l r n, get2 lr l r = some n → 0 < n := by
    intro l r n h; have := ((hg.counts l r n).1 h).2.2.2.2.2; omega
  have hentL : ∀ l r n, get2 lr l r = some n → ∃ d, (l, d) ∈ lr ∧ (r, n) ∈ d := by
    intro l r n h
    unfold get2 at h
    cases hd : Dict.get? lr l with
    | none => rw [hd] at h; cases h
    | some d => rw [hd] at h; exact ⟨d, Dict.mem_of_get? hd, Dict.mem_of_get? h⟩
  have hentR : ∀ l r n, get2 lr l r = some n → ∃ d, (r, d) ∈ rl ∧ (l, n) ∈ d := by
    intro l r n h
    rw [← hg.transpose] at h
    unfold get2 at h
    cases hd : Dict.get? rl r with
    | none => rw [hd] at h; cases h
    | some d => rw [hd] at h; exact ⟨d, Dict.mem_of_get? hd, Dict.mem_of_get? h⟩
  have hunf : ∀ lr' rl', Hits.trainHits (.onClass (some lr') (some rl')) sumOfRank df maxIter =
      if lr'.length = 0 then .error .zeroDivision else if rl'.length = 0 then .error .zeroDivision else
        match Hits.round lr' rl' (lr'.map (fun (e : Str × Dict Str Int) => (e.1, sumOfRank / lr'.length)))
          ((rl'.filter (fun (e : Str × Dict Str Int) => decide (e.1 ≠ []))).map (fun e => (e.1, sumOfRank / rl'.length))) sumOfRank df with
        | .error e => .error e
        | .ok _ => .error .nameError := by
    intro lr' rl'
    show (if lr'.length = 0 then _ else if rl'.length = 0 then _ else if maxIter ≤ 0 then _ else _) = _
    rw [if_neg (show ¬ maxIter ≤ 0 by omega)]
    generalize Hits.round lr' rl' _ _ sumOfRank df = z
    cases z <;> rfl
  rw [hunf]
  by_cases hl0 : lr.length = 0
  · rw [if_pos hl0]
    refine ⟨?_, fun _ => rfl⟩
    rintro ⟨l, r, n, _, hn⟩
    obtain ⟨d, hd, _⟩ := hentL l r n hn
    rw [List.length_eq_zero_iff] at hl0; rw [hl0] at hd; cases hd
  rw [if_neg hl0]
  have hr0 : ¬ rl.length = 0 := by
    intro h0
    rw [List.length_eq_zero_iff] at h0
    obtain ⟨e, es, he⟩ := List.exists_cons_of_ne_nil (fun h => hl0 (by rw [h]; rfl) : lr ≠ [])
    have he' : (e.1, e.2) ∈ lr := by rw [he]; exact List.mem_cons_self ..
    obtain ⟨x, xs, hx⟩ := List.exists_cons_of_ne_nil (hg.lrWf.nonempty e.1 e.2 he')
    obtain ⟨d, hd, _⟩ := hentR e.1 x.1 x.2 (hmemL e.1 e.2 x.1 x.2 he' (by rw [hx]; exact List.mem_cons_self ..))
    rw [h0] at hd; cases hd
  rw [if_neg hr0]
  obtain ⟨xl, hxl⟩ : ∃ x, x = sumOfRank / (lr.length : Rat) := ⟨_, rfl⟩
  obtain ⟨xr, hxr⟩ : ∃ x, x = sumOfRank / (rl.length : Rat) := ⟨_, rfl⟩
  have hxl0 : 0 < xl := by rw [hxl]; have : (0 : Rat) < lr.length := by exact_mod_cast Nat.pos_of_ne_zero hl0
                           positivity
  have hxr0 : 0 < xr := by rw [hxr]; have : (0 : Rat) < rl.length := by exact_mod_cast Nat.pos_of_ne_zero hr0
                           positivity
  rw [← hxl, ← hxr]
  have hL : Hits.nextL ((rl.filter (fun (e : Str × Dict Str Int) => decide (e.1 ≠ []))).map (fun e => (e.1, xr))) lr =
      .ok (lr.map (fun e => (e.1, S xr (e.2.filter (fun x => decide (x.1 ≠ [])))))) := by
    unfold Hits.nextL
    apply mapM_const
    intro e he
    rw [setSum_const (x := xr)]
    · rfl
    · intro y hy
      rw [List.mem_filter, decide_eq_true_iff] at hy
      apply get?_const
      obtain ⟨d, hd, _⟩ := hentR e.1 y.1 y.2 (hmemL e.1 e.2 y.1 y.2 he hy.1)
      exact List.mem_map.2 ⟨(y.1, d), List.mem_filter.2 ⟨hd, decide_eq_true hy.2⟩, rfl⟩
  have hR : Hits.nextR (lr.map (fun (e : Str × Dict Str Int) => (e.1, xl))) rl =
      .ok ((rl.filter (fun e => decide (e.1 ≠ []))).map (fun e => (e.1, S xl e.2))) := by
    unfold Hits.nextR
    apply mapM_const
    intro e he
    rw [setSum_const (x := xl)]
    · rfl
    · intro y hy
      rw [List.mem_filter] at he
      apply get?_const
      obtain ⟨d, hd, _⟩ := hentL y.1 e.1 y.2 (hmemR e.1 e.2 y.1 y.2 he.1 hy)
      exact List.mem_map.2 ⟨(y.1, d), hd, rfl⟩
  have hvalL : Dict.values (lr.map (fun (e : Str × Dict Str Int) => (e.1, S xr (e.2.filter (fun x => decide (x.1 ≠ [])))))) =
      lr.map (fun e => S xr (e.2.filter (fun x => decide (x.1 ≠ [])))) := by
    unfold Dict.values; rw [List.map_map]; rfl
  have hvalR : Dict.values ((rl.filter (fun e => decide (e.1 ≠ []))).map (fun (e : Str × Dict Str Int) => (e.1, S xl e.2))) =
      (rl.filter (fun e => decide (e.1 ≠ []))).map (fun e => S xl e.2) := by
    unfold Dict.values; rw [List.map_map]; rfl
  have hposL : ∀ e ∈ lr, ∀ y ∈ e.2.filter (fun (x : Str × Int) => decide (x.1 ≠ [])), 0 < y.2 := by
    intro e he y hy
    rw [List.mem_filter] at hy
    exact hpos _ _ _ (hmemL e.1 e.2 y.1 y.2 he hy.1)
  have hposR : ∀ e ∈ rl, ∀ y ∈ e.2, 0 < y.2 := fun e he y hy => hpos _ _ _ (hmemR e.1 e.2 y.1 y.2 he hy)
  constructor
  · rintro ⟨l, r, n, hr, hn⟩
    have hsl : 0 < (Dict.values (lr.map (fun (e : Str × Dict Str Int) => (e.1, S xr (e.2.filter (fun x => decide (x.1 ≠ []))))))).sum := by
      rw [hvalL]
      apply sum_pos'
      · intro a ha
        rw [List.mem_map] at ha
        obtain ⟨e, he, rfl⟩ := ha
        exact (S_pos hxr0 (hposL e he)).1
      · obtain ⟨d, hd, hy⟩ := hentL l r n hn
        refine ⟨_, List.mem_map.2 ⟨(l, d), hd, rfl⟩, (S_pos hxr0 (hposL _ hd)).2 ?_⟩
        exact List.ne_nil_of_mem (List.mem_filter.2 ⟨hy, decide_eq_true hr⟩)
    have hsr : 0 < (Dict.values ((rl.filter (fun e => decide (e.1 ≠ []))).map (fun (e : Str × Dict Str Int) => (e.1, S xl e.2)))).sum := by
      rw [hvalR]
      apply sum_pos'
      · intro a ha
        rw [List.mem_map] at ha
        obtain ⟨e, he, rfl⟩ := ha
        exact (S_pos hxl0 (hposR e (List.mem_filter.1 he).1)).1
      · obtain ⟨d, hd, hy⟩ := hentR l r n hn
        refine ⟨_, List.mem_map.2 ⟨(r, d), List.mem_filter.2 ⟨hd, decide_eq_true hr⟩, rfl⟩, (S_pos hxl0 (hposR _ hd)).2 ?_⟩
        exact List.ne_nil_of_mem hy
    obtain ⟨l', hl'⟩ := normalize_pos hsl sumOfRank df
    obtain ⟨r', hr'⟩ := normalize_pos hsr sumOfRank df
    unfold Hits.round
    rw [hL]; dsimp only; rw [hl']; dsimp only; rw [hR]; dsimp only; rw [hr']
  · intro hno
    unfold Hits.round
    rw [hL]; dsimp only
    rw [normalize_zero]
    rw [hvalL]
    have : ∀ e ∈ lr, S xr (e.2.filter (fun (x : Str × Int) => decide (x.1 ≠ []))) = 0 := by
      intro e he
      have : e.2.filter (fun (x : Str × Int) => decide (x.1 ≠ [])) = [] := by
        apply List.eq_nil_iff_forall_not_mem.2
        intro y hy
        rw [List.mem_filter, decide_eq_true_iff] at hy
        exact hno ⟨e.1, y.1, y.2, hy.2, hmemL e.1 e.2 y.1 y.2 he hy.1⟩
      rw [this]; rfl
    rw [List.map_congr_left this]
    clear hvalL hL hR hvalR hposL hposR hunf hentL hentR hmemL hmemR hxl hxr hg hl0 hr0 hno this
    induction lr with
    | nil => rfl
    | cons e es ih => simp

/-! ### example -/

example : ∃ s', EP.train { verbose := false, minFrequency := 1 } ["집에 집이".toList] = (s', .ok ()) ∧
    (∃ lr l r n, s'.lrgraph = some lr ∧ r ≠ [] ∧ get2 lr l r = some n) :=
  ⟨_, rfl, _, "집".toList, "에".toList, 1, rfl, by decide +kernel, by decide +kernel⟩

end Props
