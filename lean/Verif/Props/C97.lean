import Verif.Model.PredHeap
/-! C97: several `PredicatorExtractor` objects: independent when they share neither the set of endings nor a counter, entangled when they do. -/
namespace Props
open Py Pred PredHeap

/-! ### specification -/

/-- the `i`-th extractor holds the counter `r` -/
def HoldsCounter (w : World) (i r : Nat) : Prop := ∃ o, w.objs[i]? = some o ∧ o.cref = some r

/-- the counter `r` is passed to the `i`-th extractor in the history -/
def PassesCounter (cs : List (Nat × Op)) (i r : Nat) : Prop := ∃ enumS enumL t m, (i, Op.train enumS enumL t (.counter r) m) ∈ cs

/-- no two extractors hold the same set of endings or the same counter -/
structure PredApart (w : World) : Prop where
  setThere : ∀ (i : Nat) (o : Obj), w.objs[i]? = some o → o.ref < w.sets.length
  setOwn : ∀ (i j : Nat) (o p : Obj), w.objs[i]? = some o → w.objs[j]? = some p → o.ref = p.ref → i = j
  counterThere : ∀ (i r : Nat), HoldsCounter w i r → r < w.counters.length
  counterOwn : ∀ (i j r : Nat), HoldsCounter w i r → HoldsCounter w j r → i = j

/-- and none of them is given a counter that another one holds or is given -/
def OwnCounters (w : World) (cs : List (Nat × Op)) : Prop :=
  ∀ (i r : Nat), PassesCounter cs i r → r < w.counters.length ∧ ∀ k, PassesCounter cs k r ∨ HoldsCounter w k r → k = i

/-- the calls addressed to the `j`-th extractor -/
def predCallsTo (j : Nat) (cs : List (Nat × Op)) : List (Nat × Op) := cs.filter (fun c => decide (c.1 = j))

/-! ### proofs -/

private theorem learn_frame {entLt : List Int → Rat → Bool} {enumS : List Str → List Str} {enumL : List (Str × Str) → List (Str × Str)} {t : Thresholds} {de ds : Bool}
    {s s' : State} (h : learn entLt enumS enumL t de ds s = .ok s') :
    s'.counter = s.counter ∧ (∀ y ∈ s.eomis, y ∈ s'.eomis) ∧ (de = false → s'.eomis = s.eomis) := by
  unfold learn at h
  split at h
  · cases h; exact ⟨rfl, fun _ h => h, fun _ => rfl⟩
  cases hg : prepareLrgraph s with
  | error e => rw [hg] at h; cases h
  | ok g =>
    rw [hg] at h
    dsimp only at h
    cases he : eomiStep enumS enumL t de s g with
    | error e => rw [he] at h; cases h
    | ok r =>
      obtain ⟨s1, g1⟩ := r
      rw [he] at h
      dsimp only at h
      have h1 : s1.counter = s.counter ∧ (∀ y ∈ s.eomis, y ∈ s1.eomis) ∧ (de = false → s1.eomis = s.eomis) := by
        unfold eomiStep at he
        split at he
        · rename_i hde
          unfold extractEomi at he
          split at he
          · cases he
          · cases he
            exact ⟨rfl, fun y hy => List.mem_append_left _ hy, fun hf => by rw [hde] at hf; cases hf⟩
        · cases he; exact ⟨rfl, fun _ h => h, fun _ => rfl⟩
      have h2 := Except.ok.inj h
      split at h2
      · rw [← h2]; exact h1
      · rw [← h2]; exact h1

private theorem count_counter {s s' : State} {x : Input} {m : Int} (h : count s x m = .ok s') :
    (∃ c, s'.counter = some c) ∧ s'.eomis = s.eomis ∧ ∀ c, x = .counter c → s' = (trainWithEojeolCounter s c m).1 := by
  unfold count at h
  cases x with
  | graph g =>
    dsimp only at h
    unfold trainWithLrgraph at h
    cases hc : LR.toEojeolCounter g with
    | error e => rw [hc] at h; cases h
    | ok c => rw [hc] at h; cases h; exact ⟨⟨_, rfl⟩, rfl, fun _ h => by cases h⟩
  | counter c => cases h; exact ⟨⟨_, rfl⟩, rfl, fun _ h => by cases h; rfl⟩
  | sentences ss =>
    dsimp only at h
    unfold trainWithSentences at h
    cases hc : EC.construct (counterParams s m) (some ss) with
    | error e => rw [hc] at h; cases h
    | ok c => rw [hc] at h; cases h; exact ⟨⟨_, rfl⟩, rfl, fun _ h => by cases h⟩

private theorem train_frame {entLt : List Int → Rat → Bool} {enumS : List Str → List Str} {enumL : List (Str × Str) → List (Str × Str)} {t : Thresholds} {de ds : Bool}
    {s s' : State} {x : Input} {m : Int} (h : Pred.train entLt enumS enumL t de ds s x m = .ok s') :
    (∃ c, s'.counter = some c) ∧ (∀ y ∈ s.eomis, y ∈ s'.eomis) ∧ (de = false → s'.eomis = s.eomis) ∧
      ∀ c, x = .counter c → s'.counter = some (trainWithEojeolCounter s c m).2 := by
  unfold Pred.train at h
  cases hc : count s x m with
  | error e => rw [hc] at h; cases h
  | ok s1 =>
    rw [hc] at h
    obtain ⟨⟨c, a⟩, b, d⟩ := count_counter hc
    obtain ⟨e, f, g⟩ := learn_frame h
    refine ⟨⟨c, by rw [e, a]⟩, fun y hy => f y (by rw [b]; exact hy), fun hd => by rw [g hd, b], fun c' hx => ?_⟩
    rw [e, d c' hx]; rfl

private theorem getD_set {α : Type} {l : List α} {i : Nat} {x d : α} (h : i < l.length) (j : Nat) : (l.set i x).getD j d = if j = i then x else l.getD j d := by
  simp only [List.getD_eq_getElem?_getD, List.getElem?_set]
  by_cases e : i = j
  · subst e; simp [h]
  · rw [if_neg e, if_neg (fun h => e h.symm)]

private theorem getD_push {α : Type} {l : List α} {x d : α} (j : Nat) : (l ++ [x]).getD j d = if j = l.length then x else l.getD j d := by
  simp only [List.getD_eq_getElem?_getD]
  by_cases e : j = l.length
  · subst e; simp
  · rw [if_neg e]
    by_cases hl : j < l.length
    · rw [List.getElem?_append_left hl]
    · rw [List.getElem?_eq_none (by simp; omega), List.getElem?_eq_none (by omega)]

private theorem get_set {α : Type} {l : List α} {i : Nat} {o : α} (h : l[i]? = some o) (x : α) (j : Nat) : (l.set i x)[j]? = if i = j then some x else l[j]? := by
  have hil : i < l.length := (List.getElem?_eq_some_iff.1 h).1
  rw [List.getElem?_set]
  by_cases e : i = j
  · subst e; simp [hil]
  · simp [e]

/-- what a training writes -/
private theorem trained_spec {w : World} {i : Nat} {o : Obj} (hv : o.ref < w.sets.length) {x : Source} {s : State} {c : EC.State}
    (hc : s.counter = some c) (hr : ∀ r, x = .counter r → r < w.counters.length) :
    ∃ r, (trained w i o x s).objs = w.objs.set i { o with cref := some r, st := s } ∧ (trained w i o x s).sets = w.sets.set o.ref s.eomis ∧
      (trained w i o x s).counters.getD r {} = c ∧ r < (trained w i o x s).counters.length ∧ w.counters.length ≤ (trained w i o x s).counters.length ∧
      (∀ r', r' ≠ r → (trained w i o x s).counters.getD r' {} = w.counters.getD r' {}) ∧
      (x = .counter r ∨ r = w.counters.length ∧ ∀ r', x ≠ .counter r') ∧
      view (trained w i o x s) { o with cref := some r, st := s } = s := by
  have hview : ∀ (W : World) (r : Nat), W.sets = w.sets.set o.ref s.eomis → W.counters.getD r {} = c → view W { o with cref := some r, st := s } = s := by
    intro W r h1 h2
    unfold view
    dsimp only
    rw [h1, getD_set hv, if_pos rfl, Option.map_some, h2, ← hc]
  cases x with
  | sentences ss =>
    refine ⟨w.counters.length, rfl, rfl, ?_, ?_, ?_, ?_, Or.inr ⟨rfl, fun _ h => by cases h⟩, ?_⟩
    · show (w.counters ++ [s.counter.getD {}]).getD _ {} = c
      rw [getD_push, if_pos rfl, hc]; rfl
    · show _ < (w.counters ++ [s.counter.getD {}]).length
      simp
    · show _ ≤ (w.counters ++ [s.counter.getD {}]).length
      simp
    · intro r' h
      show (w.counters ++ [s.counter.getD {}]).getD _ {} = _
      rw [getD_push, if_neg h]
    · apply hview _ _ rfl
      show (w.counters ++ [s.counter.getD {}]).getD _ {} = c
      rw [getD_push, if_pos rfl, hc]; rfl
  | graph g =>
    refine ⟨w.counters.length, rfl, rfl, ?_, ?_, ?_, ?_, Or.inr ⟨rfl, fun _ h => by cases h⟩, ?_⟩
    · show (w.counters ++ [s.counter.getD {}]).getD _ {} = c
      rw [getD_push, if_pos rfl, hc]; rfl
    · show _ < (w.counters ++ [s.counter.getD {}]).length
      simp
    · show _ ≤ (w.counters ++ [s.counter.getD {}]).length
      simp
    · intro r' h
      show (w.counters ++ [s.counter.getD {}]).getD _ {} = _
      rw [getD_push, if_neg h]
    · apply hview _ _ rfl
      show (w.counters ++ [s.counter.getD {}]).getD _ {} = c
      rw [getD_push, if_pos rfl, hc]; rfl
  | counter r =>
    have hlt := hr r rfl
    refine ⟨r, rfl, rfl, ?_, ?_, ?_, ?_, Or.inl rfl, ?_⟩
    · show (w.counters.set r (s.counter.getD {})).getD _ {} = c
      rw [getD_set hlt, if_pos rfl, hc]; rfl
    · show _ < (w.counters.set r (s.counter.getD {})).length
      rw [List.length_set]; exact hlt
    · show _ ≤ (w.counters.set r (s.counter.getD {})).length
      rw [List.length_set]
    · intro r' h
      show (w.counters.set r (s.counter.getD {})).getD _ {} = _
      rw [getD_set hlt, if_neg h]
    · apply hview _ _ rfl
      show (w.counters.set r (s.counter.getD {})).getD _ {} = c
      rw [getD_set hlt, if_pos rfl, hc]; rfl

/-- a successful call, taken apart -/
private theorem call_ok {entLt : List Int → Rat → Bool} {w w' : World} {i : Nat} {op : Op} (h : call entLt w i op = .ok w') :
    ∃ o, w.objs[i]? = some o ∧
      ((∃ enumS enumL t x m s, op = .train enumS enumL t x m ∧ Pred.train entLt enumS enumL t o.doEomi o.doStem (view w o) (x.read w) m = .ok s ∧ w' = trained w i o x s) ∨
       (∃ enumL given m s out, op = .extract enumL given m ∧ Pred.extract enumL (view w o) given m = .ok (s, out) ∧ w' = extracted w i o s)) := by
  unfold call at h
  cases ho : w.objs[i]? with
  | none => rw [ho] at h; cases h
  | some o =>
    rw [ho] at h
    refine ⟨o, rfl, ?_⟩
    cases op with
    | train enumS enumL t x m =>
      dsimp only at h
      cases hp : Pred.train entLt enumS enumL t o.doEomi o.doStem (view w o) (x.read w) m with
      | error e => rw [hp] at h; cases h
      | ok s => rw [hp] at h; cases h; exact Or.inl ⟨_, _, _, _, _, s, rfl, hp, rfl⟩
    | extract enumL given m =>
      dsimp only at h
      cases hp : Pred.extract enumL (view w o) given m with
      | error e => rw [hp] at h; cases h
      | ok r => rw [hp] at h; cases h; exact Or.inr ⟨_, _, _, r.1, r.2, rfl, hp, rfl⟩

/-- **C97** A training changes the endings and the counter it works with, for everybody who holds them. Of every other extractor nothing else changes: it knows the endings the trained
    one knows now if it holds the same set, and has the counter of the trained one if that was passed and it holds it; otherwise it is what it was. No ending is forgotten, and without
    `extract_eomi` none is learnt. A counter that is passed keeps exactly its eojeols with a count of at least the minimum. -/
theorem C97_train (entLt : List Int → Rat → Bool) (w w' : World) (i : Nat) (o : Obj) (ho : w.objs[i]? = some o) (hv : o.ref < w.sets.length)
    (enumS : List Str → List Str) (enumL : List (Str × Str) → List (Str × Str)) (t : Thresholds) (x : Source) (m : Int) (hr : ∀ r, x = .counter r → r < w.counters.length)
    (h : call entLt w i (.train enumS enumL t x m) = .ok w') :
    ∃ o', w'.objs[i]? = some o' ∧ o'.ref = o.ref ∧
      Pred.train entLt enumS enumL t o.doEomi o.doStem (view w o) (x.read w) m = .ok (view w' o') ∧
      (∀ y ∈ (view w o).eomis, y ∈ (view w' o').eomis) ∧ (o.doEomi = false → (view w' o').eomis = (view w o).eomis) ∧
      (∀ r, x = .counter r → o'.cref = some r ∧ w'.counters.getD r {} =
        { w.counters.getD r {} with
          counter := (w.counters.getD r {}).counter.filter (fun kv => decide (m ≤ kv.2))
          countSum := Dict.sumI ((w.counters.getD r {}).counter.filter (fun kv => decide (m ≤ kv.2))) }) ∧
      ∀ (k : Nat) (p : Obj), k ≠ i → w.objs[k]? = some p → w'.objs[k]? = some p ∧
        view w' p = { view w p with
          eomis := if p.ref = o.ref then (view w' o').eomis else (view w p).eomis
          counter := if p.cref = o'.cref then (view w' o').counter else (view w p).counter } := by
  obtain ⟨o₁, ho₁, hcase⟩ := call_ok h
  rw [ho] at ho₁; cases ho₁
  rcases hcase with ⟨_, _, _, _, _, s, hop, hp, rfl⟩ | ⟨_, _, _, _, _, hop, _⟩
  swap
  · cases hop
  cases hop
  obtain ⟨⟨c, hc⟩, h1, h2, h3⟩ := train_frame hp
  obtain ⟨r, ho', hs', hcr, hrl, hle, hother, hxr, hview⟩ := trained_spec (i := i) hv hc hr
  refine ⟨{ o with cref := some r, st := s }, ?_, rfl, ?_, ?_, ?_, ?_, ?_⟩
  · rw [ho', get_set ho, if_pos rfl]
  · rw [hview]; exact hp
  · rw [hview]; exact h1
  · rw [hview]; exact h2
  · intro r' hx
    have hrr : r' = r := by
      rcases hxr with h | ⟨_, h⟩
      · rw [h] at hx; cases hx; rfl
      · exact absurd hx (h r')
    subst hrr
    refine ⟨rfl, ?_⟩
    rw [hcr]
    have := h3 (w.counters.getD r' {}) (by rw [hx]; rfl)
    rw [hc] at this
    cases this
    rfl
  · intro k p hk hp'
    refine ⟨by rw [ho', get_set ho, if_neg (fun h => hk h.symm)]; exact hp', ?_⟩
    rw [hview]
    have he : (trained w i o x s).sets.getD p.ref [] = if p.ref = o.ref then s.eomis else w.sets.getD p.ref [] := by rw [hs', getD_set hv]
    have hcc : p.cref.map (fun r => (trained w i o x s).counters.getD r {}) = if p.cref = some r then s.counter else p.cref.map (fun r => w.counters.getD r {}) := by
      cases hpc : p.cref with
      | none => rw [if_neg (by simp)]; rfl
      | some q =>
        by_cases e : q = r
        · subst e; rw [if_pos rfl, hc, Option.map_some, hcr]
        · rw [if_neg (by simpa using e), Option.map_some, Option.map_some, hother q e]
    show ({ p.st with eomis := _, counter := _ } : State) = _
    rw [he, hcc]
    rfl

/-- **C97** An extraction changes no other extractor, and from then on the extractor has a set of endings of its own. -/
theorem C97_extract (entLt : List Int → Rat → Bool) (w w' : World) (i : Nat) (o : Obj) (ho : w.objs[i]? = some o) (hv : ∀ (k : Nat) (p : Obj), w.objs[k]? = some p → p.ref < w.sets.length)
    (enumL : List (Str × Str) → List (Str × Str)) (given : List (Str × Int)) (m : Int) (h : call entLt w i (.extract enumL given m) = .ok w') :
    (∃ o' out, w'.objs[i]? = some o' ∧ Pred.extract enumL (view w o) given m = .ok (view w' o', out) ∧ o'.cref = o.cref ∧
      ∀ (k : Nat) (p : Obj), k ≠ i → w'.objs[k]? = some p → p.ref ≠ o'.ref) ∧
    ∀ (k : Nat) (p : Obj), k ≠ i → w.objs[k]? = some p → w'.objs[k]? = some p ∧ view w' p = view w p := by
  obtain ⟨o₁, ho₁, hcase⟩ := call_ok h
  rw [ho] at ho₁; cases ho₁
  rcases hcase with ⟨_, _, _, _, _, _, hop, _⟩ | ⟨_, _, _, s, out, hop, hp, rfl⟩
  · cases hop
  cases hop
  have hget : ∀ k, (extracted w i o s).objs[k]? = if i = k then some { o with ref := w.sets.length, st := s } else w.objs[k]? := fun k => get_set ho _ k
  refine ⟨⟨{ o with ref := w.sets.length, st := s }, out, by rw [hget, if_pos rfl], ?_, rfl, ?_⟩, ?_⟩
  · have hs : s.counter = (view w o).counter := by
      unfold Pred.extract extractPredicator at hp
      have hasl : ∀ l r, asLemmaCandidates enumL (view w o) l = .ok r → r.1.counter = (view w o).counter := by
        intro l r hr
        unfold asLemmaCandidates at hr
        split at hr
        · cases hr
        · dsimp only at hr
          split at hr
          · cases hr
          · cases hr; rfl
      have hfin : ∀ (e : PyM (State × Dict Str Entry)), (∀ r, e = .ok r → r.1.counter = (view w o).counter) →
          (match e with | .error e => .error e | .ok (s, predicators) => (separate s predicators).map (fun av => (s, av)) : PyM (State × _)) = .ok (s, out) →
          s.counter = (view w o).counter := by
        intro e he h
        cases e with
        | error e => cases h
        | ok r =>
          dsimp only at h
          cases hsep : separate r.1 r.2 with
          | error e => rw [hsep] at h; cases h
          | ok av => rw [hsep] at h; cases h; exact he r rfl
      refine hfin _ ?_ hp
      intro r hr
      split at hr
      · exact hasl _ _ hr
      · split at hr
        · cases hr
        · exact hasl _ _ hr
    have : view (extracted w i o s) { o with ref := w.sets.length, st := s } = s := by
      show ({ s with eomis := (w.sets ++ [s.eomis]).getD w.sets.length [], counter := o.cref.map (fun r => w.counters.getD r {}) } : State) = s
      rw [getD_push, if_pos rfl]
      have e : o.cref.map (fun r => w.counters.getD r {}) = s.counter := hs.symm
      rw [e]
    rw [this]; exact hp
  · intro k p hk hp'
    rw [hget, if_neg (fun h => hk h.symm)] at hp'
    exact Nat.ne_of_lt (hv k p hp')
  · intro k p hk hp'
    refine ⟨by rw [hget, if_neg (fun h => hk h.symm)]; exact hp', ?_⟩
    show ({ p.st with eomis := (w.sets ++ [s.eomis]).getD p.ref [], counter := _ } : State) = _
    rw [getD_push, if_neg (Nat.ne_of_lt (hv k p hp'))]
    rfl

/-- what stays true while nothing is shared -/
private structure Inv (N : Nat) (Own : Nat → Nat → Prop) (w : World) : Prop where
  apart : PredApart w
  old : ∀ i r, HoldsCounter w i r → r < N → Own r i
  size : N ≤ w.counters.length

private theorem step_inv {entLt : List Int → Rat → Bool} {N : Nat} {Own : Nat → Nat → Prop} (hfun : ∀ r i k, Own r i → Own r k → i = k) {w w' : World} (hI : Inv N Own w)
    {i : Nat} {op : Op} (hop : ∀ enumS enumL t r m, op = .train enumS enumL t (.counter r) m → r < N ∧ Own r i) (h : call entLt w i op = .ok w') :
    Inv N Own w' ∧ (∀ (k : Nat) (p : Obj), k ≠ i → w.objs[k]? = some p → w'.objs[k]? = some p ∧ view w' p = view w p) ∧
      (∀ k r, k ≠ i → r < N → Own r k → w'.counters.getD r {} = w.counters.getD r {}) := by
  obtain ⟨o, ho, hcase⟩ := call_ok h
  have hv := hI.apart.setThere i o ho
  rcases hcase with ⟨enumS, enumL, t, x, m, s, rfl, hp, hw⟩ | ⟨enumL, given, m, s, out, rfl, hp, hw⟩
  · have hr : ∀ r, x = .counter r → r < w.counters.length := fun r hx => by
      have := (hop enumS enumL t r m (by rw [hx])).1
      have := hI.size; omega
    obtain ⟨⟨c, hc⟩, -, -, -⟩ := train_frame hp
    obtain ⟨r, ho', hs', hcr, hrl, hle, hother, hxr, hview⟩ := trained_spec (i := i) hv hc hr
    rw [← hw] at ho' hs' hcr hrl hle hother hview
    have hget : ∀ k, w'.objs[k]? = if i = k then some { o with cref := some r, st := s } else w.objs[k]? := fun k => by rw [ho']; exact get_set ho _ k
    have hnoshare : ∀ k, k ≠ i → ¬ HoldsCounter w k r := by
      intro k hk hh
      rcases hxr with hx | ⟨hx, _⟩
      · have h1 := hop enumS enumL t r m (by rw [hx])
        exact hk (hfun r k i (hI.old k r hh h1.1) h1.2)
      · have := hI.apart.counterThere k r hh; omega
    have hhold : ∀ k q, HoldsCounter w' k q → k = i ∧ q = r ∨ k ≠ i ∧ HoldsCounter w k q := by
      rintro k q ⟨p, hp', hq⟩
      rw [hget] at hp'
      by_cases e : i = k
      · rw [if_pos e] at hp'; cases hp'; cases hq; exact Or.inl ⟨e.symm, rfl⟩
      · rw [if_neg e] at hp'; exact Or.inr ⟨fun h => e h.symm, p, hp', hq⟩
    refine ⟨⟨⟨?_, ?_, ?_, ?_⟩, ?_, ?_⟩, ?_, ?_⟩
    · intro k p hp'
      rw [hs', List.length_set]
      rw [hget] at hp'
      split at hp'
      · cases hp'; exact hv
      · exact hI.apart.setThere k p hp'
    · intro k l p q hp' hq he
      rw [hget] at hp' hq
      have aux : ∀ (k : Nat) (p : Obj), (if i = k then some { o with cref := some r, st := s } else w.objs[k]?) = some p → ∃ p₀, w.objs[k]? = some p₀ ∧ p₀.ref = p.ref := by
        intro k p h
        by_cases e : i = k
        · rw [if_pos e] at h; cases h; exact ⟨o, by rw [← e]; exact ho, rfl⟩
        · rw [if_neg e] at h; exact ⟨p, h, rfl⟩
      obtain ⟨p₀, a1, a2⟩ := aux k p hp'
      obtain ⟨q₀, b1, b2⟩ := aux l q hq
      exact hI.apart.setOwn k l p₀ q₀ a1 b1 (by rw [a2, b2, he])
    · intro k q hh
      rcases hhold k q hh with ⟨_, rfl⟩ | ⟨_, hh⟩
      · exact hrl
      · have := hI.apart.counterThere k q hh; omega
    · intro k l q hk hl
      rcases hhold k q hk with ⟨rfl, rfl⟩ | ⟨nk, hk⟩ <;> rcases hhold l _ hl with ⟨e1, e2⟩ | ⟨nl, hl⟩
      · exact e1.symm
      · exact absurd hl (hnoshare l nl)
      · rw [e2] at hk; exact absurd hk (hnoshare k nk)
      · exact hI.apart.counterOwn k l q hk hl
    · intro k q hh hq
      rcases hhold k q hh with ⟨rfl, rfl⟩ | ⟨_, hh⟩
      · rcases hxr with hx | ⟨hx, _⟩
        · exact (hop enumS enumL t q m (by rw [hx])).2
        · have := hI.size; omega
      · exact hI.old k q hh hq
    · exact Nat.le_trans hI.size hle
    · intro k p hk hp'
      refine ⟨by rw [hget, if_neg (fun h => hk h.symm)]; exact hp', ?_⟩
      have he : w'.sets.getD p.ref [] = w.sets.getD p.ref [] := by
        rw [hs', getD_set hv, if_neg (fun h => hk (hI.apart.setOwn k i p o hp' ho h))]
      have hcc : p.cref.map (fun r => w'.counters.getD r {}) = p.cref.map (fun r => w.counters.getD r {}) := by
        cases hpc : p.cref with
        | none => rfl
        | some q =>
          rw [Option.map_some, Option.map_some, hother q]
          rintro rfl
          exact hnoshare k hk ⟨p, hp', hpc⟩
      show ({ p.st with eomis := _, counter := _ } : State) = _
      rw [he, hcc]
      rfl
    · intro k q hk hq hown
      apply hother
      rintro rfl
      rcases hxr with hx | ⟨hx, _⟩
      · exact hk (hfun q k i hown (hop enumS enumL t q m (by rw [hx])).2)
      · have := hI.size; omega
  · obtain ⟨-, hoth⟩ := C97_extract entLt w w' i o ho hI.apart.setThere enumL given m h
    subst hw
    have hget : ∀ k, (extracted w i o s).objs[k]? = if i = k then some { o with ref := w.sets.length, st := s } else w.objs[k]? := fun k => get_set ho _ k
    have hhold : ∀ k q, HoldsCounter (extracted w i o s) k q → HoldsCounter w k q := by
      rintro k q ⟨p, hp', hq⟩
      rw [hget] at hp'
      by_cases e : i = k
      · rw [if_pos e] at hp'; cases hp'; exact ⟨o, by rw [← e]; exact ho, hq⟩
      · rw [if_neg e] at hp'; exact ⟨p, hp', hq⟩
    refine ⟨⟨⟨?_, ?_, ?_, ?_⟩, ?_, hI.size⟩, hoth, fun _ _ _ _ _ => rfl⟩
    · intro k p hp'
      show _ < (w.sets ++ [s.eomis]).length
      rw [List.length_append, List.length_singleton]
      rw [hget] at hp'
      split at hp'
      · cases hp'; exact Nat.lt_succ_self _
      · have := hI.apart.setThere k p hp'; omega
    · intro k l p q hp' hq he
      rw [hget] at hp' hq
      by_cases e1 : i = k <;> by_cases e2 : i = l
      · omega
      · rw [if_pos e1] at hp'; rw [if_neg e2] at hq; cases hp'
        have := hI.apart.setThere l q hq; dsimp only at he; omega
      · rw [if_neg e1] at hp'; rw [if_pos e2] at hq; cases hq
        have := hI.apart.setThere k p hp'; dsimp only at he; omega
      · rw [if_neg e1] at hp'; rw [if_neg e2] at hq
        exact hI.apart.setOwn k l p q hp' hq he
    · exact fun k q hh => hI.apart.counterThere k q (hhold k q hh)
    · exact fun k l q hk hl => hI.apart.counterOwn k l q (hhold k q hk) (hhold l q hl)
    · exact fun k q hh hq => hI.old k q (hhold k q hh) hq

/-- the same call in two worlds in which the extractor looks the same -/
private theorem step_same {entLt : List Int → Rat → Bool} {N : Nat} {Own : Nat → Nat → Prop} {w u w' : World} (hI : Inv N Own w) (hJ : Inv N Own u) {j : Nat} {op : Op} {o q : Obj}
    (hop : ∀ enumS enumL t r m, op = .train enumS enumL t (.counter r) m → r < N ∧ Own r j) (ho : w.objs[j]? = some o) (hq : u.objs[j]? = some q)
    (hview : view w o = view u q) (hde : o.doEomi = q.doEomi) (hds : o.doStem = q.doStem) (hcs : ∀ r, r < N → Own r j → w.counters.getD r {} = u.counters.getD r {})
    (h : call entLt w j op = .ok w') :
    ∃ u' o' q', call entLt u j op = .ok u' ∧ w'.objs[j]? = some o' ∧ u'.objs[j]? = some q' ∧ view w' o' = view u' q' ∧ o'.doEomi = q'.doEomi ∧ o'.doStem = q'.doStem ∧
      ∀ r, r < N → Own r j → w'.counters.getD r {} = u'.counters.getD r {} := by
  obtain ⟨o₁, ho₁, hcase⟩ := call_ok h
  rw [ho] at ho₁; cases ho₁
  have hv := hI.apart.setThere j o ho
  have hv' := hJ.apart.setThere j q hq
  rcases hcase with ⟨enumS, enumL, t, x, m, s, rfl, hp, rfl⟩ | ⟨enumL, given, m, s, out, rfl, hp, hw⟩
  · have hread : x.read w = x.read u := by
      cases x with
      | sentences ss => rfl
      | graph g => rfl
      | counter r =>
        obtain ⟨a, b⟩ := hop enumS enumL t r m rfl
        show Input.counter _ = Input.counter _
        rw [hcs r a b]
    have hlt : ∀ r, x = .counter r → r < N := fun r hx => (hop enumS enumL t r m (by rw [hx])).1
    have hp2 := hp
    rw [hview, hread, hde, hds] at hp2
    obtain ⟨⟨c, hc⟩, -, -, -⟩ := train_frame hp
    obtain ⟨r, a1, a2, a3, a4, a5, a6, a7, a8⟩ := trained_spec (i := j) hv hc (fun r hx => Nat.lt_of_lt_of_le (hlt r hx) hI.size)
    obtain ⟨r', b1, b2, b3, b4, b5, b6, b7, b8⟩ := trained_spec (i := j) hv' hc (fun r hx => Nat.lt_of_lt_of_le (hlt r hx) hJ.size)
    refine ⟨trained u j q x s, { o with cref := some r, st := s }, { q with cref := some r', st := s }, ?_, by rw [a1, get_set ho, if_pos rfl], by rw [b1, get_set hq, if_pos rfl], by rw [a8, b8], hde, hds, ?_⟩
    · unfold call
      rw [hq]
      show (Pred.train entLt enumS enumL t q.doEomi q.doStem (view u q) (x.read u) m).map (trained u j q x) = _
      rw [hp2]; rfl
    · intro k hk hown
      rcases a7 with hx | ⟨hx, hno⟩
      · rcases b7 with hx' | ⟨_, hno'⟩
        · rw [hx] at hx'; cases hx'
          by_cases e : k = r
          · rw [e, a3, b3]
          · rw [a6 k e, b6 k e, hcs k hk hown]
        · exact absurd hx (hno' r)
      · rcases b7 with hx' | ⟨hx', _⟩
        · exact absurd hx' (hno r')
        · have h1 := hI.size
          have h2 := hJ.size
          rw [a6 k (by omega), b6 k (by omega), hcs k hk hown]
  · have hp2 := hp
    rw [hview] at hp2
    have hu : call entLt u j (.extract enumL given m) = .ok (extracted u j q s) := by
      unfold call
      rw [hq]
      show (Pred.extract enumL (view u q) given m).map (fun r => extracted u j q r.1) = _
      rw [hp2]; rfl
    obtain ⟨⟨o', out1, c1, c2, -, -⟩, -⟩ := C97_extract entLt w w' j o ho hI.apart.setThere enumL given m h
    obtain ⟨⟨q', out2, d1, d2, -, -⟩, -⟩ := C97_extract entLt u _ j q hq hJ.apart.setThere enumL given m hu
    rw [hp] at c2
    rw [hp2] at d2
    have e1 : s = view w' o' := by injection c2 with c2; exact congrArg Prod.fst c2
    have e2 : s = view (extracted u j q s) q' := by injection d2 with d2; exact congrArg Prod.fst d2
    have f1 : o'.doEomi = o.doEomi ∧ o'.doStem = o.doStem := by
      rw [hw] at c1
      have c1 : (w.objs.set j { o with ref := w.sets.length, st := s })[j]? = some o' := c1
      rw [get_set ho, if_pos rfl] at c1; cases c1; exact ⟨rfl, rfl⟩
    have f2 : q'.doEomi = q.doEomi ∧ q'.doStem = q.doStem := by
      have d1 : (u.objs.set j { q with ref := u.sets.length, st := s })[j]? = some q' := d1
      rw [get_set hq, if_pos rfl] at d1; cases d1; exact ⟨rfl, rfl⟩
    refine ⟨_, o', q', hu, c1, d1, by rw [← e1, ← e2], by rw [f1.1, f2.1, hde], by rw [f1.2, f2.2, hds], ?_⟩
    intro r hr hown
    rw [hw]
    exact hcs r hr hown

private theorem runs_same {entLt : List Int → Rat → Bool} {N : Nat} {Own : Nat → Nat → Prop} (hfun : ∀ r i k, Own r i → Own r k → i = k) {j : Nat} :
    ∀ (cs : List (Nat × Op)) (w u w' : World), Inv N Own w → Inv N Own u →
      (∀ i enumS enumL t r m, (i, Op.train enumS enumL t (.counter r) m) ∈ cs → r < N ∧ Own r i) →
      ∀ o q, w.objs[j]? = some o → u.objs[j]? = some q → view w o = view u q → o.doEomi = q.doEomi → o.doStem = q.doStem →
      (∀ r, r < N → Own r j → w.counters.getD r {} = u.counters.getD r {}) → calls entLt w cs = .ok w' →
      ∃ u' o' q', calls entLt u (predCallsTo j cs) = .ok u' ∧ w'.objs[j]? = some o' ∧ u'.objs[j]? = some q' ∧ view w' o' = view u' q' ∧ PredApart w'
  | [], w, u, w', hI, hJ, hcs, o, q, ho, hq, hv, _, _, _, h => by
    cases h
    exact ⟨u, o, q, rfl, ho, hq, hv, hI.apart⟩
  | (i, op) :: cs, w, u, w', hI, hJ, hcs, o, q, ho, hq, hv, hde, hds, hc, h => by
    unfold calls at h
    dsimp only at h
    cases h1 : call entLt w i op with
    | error e => rw [h1] at h; cases h
    | ok w1 =>
      rw [h1] at h
      dsimp only at h
      have hop : ∀ enumS enumL t r m, op = .train enumS enumL t (.counter r) m → r < N ∧ Own r i :=
        fun a b c r m e => hcs i a b c r m (by rw [e]; exact List.mem_cons_self ..)
      have hcs' : ∀ i enumS enumL t r m, (i, Op.train enumS enumL t (.counter r) m) ∈ cs → r < N ∧ Own r i :=
        fun i a b c r m e => hcs i a b c r m (List.mem_cons_of_mem _ e)
      obtain ⟨hI1, hoth, hcnt⟩ := step_inv hfun hI hop h1
      by_cases e : i = j
      · subst e
        obtain ⟨u1, o1, q1, g1, g2, g3, g4, g5, g6, g7⟩ := step_same hI hJ hop ho hq hv hde hds hc h1
        obtain ⟨hJ1, -, -⟩ := step_inv hfun hJ hop g1
        obtain ⟨u', o', q', k1, k2⟩ := runs_same hfun cs w1 u1 w' hI1 hJ1 hcs' o1 q1 g2 g3 g4 g5 g6 g7 h
        refine ⟨u', o', q', ?_, k2⟩
        unfold predCallsTo
        rw [List.filter_cons_of_pos (p := fun c : Nat × Op => decide (c.1 = i)) (by simp)]
        unfold calls
        dsimp only
        rw [g1]
        exact k1
      · obtain ⟨ho1, hv1⟩ := hoth j o (fun h => e h.symm) ho
        obtain ⟨u', o', q', k1, k2⟩ := runs_same hfun cs w1 u w' hI1 hJ hcs' o q ho1 hq (by rw [hv1, hv]) hde hds
          (fun r hr hown => by rw [hcnt j r (fun h => e h.symm) hr hown]; exact hc r hr hown) h
        refine ⟨u', o', q', ?_, k2⟩
        unfold predCallsTo
        rw [List.filter_cons_of_neg (p := fun c : Nat × Op => decide (c.1 = j)) (by simp [e])]
        exact k1

/-- **C97** As long as no two extractors hold the same set of endings or the same counter, and no counter is passed to two of them, extractors do not interfere: after any interleaving
    of calls (none of which raises), each is in the state, and answers, as if only its own calls had been made - and they stay apart. -/
theorem C97_independent (entLt : List Int → Rat → Bool) (w w' : World) (cs : List (Nat × Op)) (ha : PredApart w) (hc : OwnCounters w cs) (h : calls entLt w cs = .ok w')
    (j : Nat) (hj : j < w.objs.length) :
    PredApart w' ∧ ∃ u o p, calls entLt w (predCallsTo j cs) = .ok u ∧ w'.objs[j]? = some o ∧ u.objs[j]? = some p ∧ view w' o = view u p ∧
      ∀ enumL given m, answer w' j enumL given m = answer u j enumL given m := by
  have ho : w.objs[j]? = some w.objs[j] := List.getElem?_eq_getElem hj
  have hfun : ∀ r i k, (PassesCounter cs i r ∨ HoldsCounter w i r) → (PassesCounter cs k r ∨ HoldsCounter w k r) → i = k := by
    intro r i k hi hk
    rcases hi with hi | hi
    · exact ((hc i r hi).2 k hk).symm
    · rcases hk with hk | hk
      · exact (hc k r hk).2 i (Or.inr hi)
      · exact ha.counterOwn i k r hi hk
  have hI : Inv w.counters.length (fun r i => PassesCounter cs i r ∨ HoldsCounter w i r) w := ⟨ha, fun i r hh _ => Or.inr hh, Nat.le_refl _⟩
  obtain ⟨u, o, p, k1, k2, k3, k4, k5⟩ := runs_same hfun (j := j) cs w w w' hI hI
    (fun i a b c r m e => ⟨(hc i r ⟨a, b, c, m, e⟩).1, Or.inl ⟨a, b, c, m, e⟩⟩) _ _ ho ho rfl rfl rfl (fun _ _ _ => rfl) h
  refine ⟨k5, u, o, p, k1, k2, k3, k4, ?_⟩
  intro enumL given m
  unfold answer
  rw [k2, k3]
  dsimp only
  rw [k4]

/-- **C97** An extractor made without `eomis`, or with a set nobody holds, keeps all extractors apart, and changes none of the existing ones. -/
theorem C97_new (dj da dv de : List Str) (w : World) (ha : PredApart w) (a : Args)
    (hf : ∀ r, a.eomis = some r → r < w.sets.length ∧ ∀ (k : Nat) (p : Obj), w.objs[k]? = some p → p.ref ≠ r) :
    PredApart (new dj da dv de w a) ∧ (new dj da dv de w a).objs.length = w.objs.length + 1 ∧
      ∀ (k : Nat) (p : Obj), w.objs[k]? = some p → (new dj da dv de w a).objs[k]? = some p ∧ view (new dj da dv de w a) p = view w p := by
  obtain ⟨ref, st, sets, hw, href, hnot, hsets, hlen⟩ : ∃ (ref : Nat) (st : State) (sets : List (List Str)),
      new dj da dv de w a = { w with sets := sets, objs := w.objs ++ [{ ref := ref, cref := none, doEomi := a.doEomi, doStem := a.doStem, st := st }] } ∧
      ref < sets.length ∧ (∀ (k : Nat) (p : Obj), w.objs[k]? = some p → p.ref ≠ ref) ∧ (∀ r, r < w.sets.length → sets.getD r [] = w.sets.getD r []) ∧ w.sets.length ≤ sets.length := by
    unfold new
    cases he : a.eomis with
    | some r => exact ⟨r, _, w.sets, rfl, (hf r he).1, (hf r he).2, fun _ _ => rfl, Nat.le_refl _⟩
    | none =>
      refine ⟨w.sets.length, _, w.sets ++ [de], rfl, by simp, fun k p hp => Nat.ne_of_lt (ha.setThere k p hp), ?_, by simp⟩
      intro r hr
      rw [getD_push, if_neg (by omega)]
  rw [hw]
  have hget : ∀ (k : Nat) (p : Obj), (w.objs ++ [({ ref := ref, cref := none, doEomi := a.doEomi, doStem := a.doStem, st := st } : Obj)])[k]? = some p →
      w.objs[k]? = some p ∨ k = w.objs.length ∧ p.ref = ref ∧ p.cref = none := by
    intro k p h
    by_cases hk : k < w.objs.length
    · rw [List.getElem?_append_left hk] at h; exact Or.inl h
    · rw [List.getElem?_append_right (by omega)] at h
      cases hd : k - w.objs.length with
      | zero => rw [hd] at h; cases h; exact Or.inr ⟨by omega, rfl, rfl⟩
      | succ n => rw [hd] at h; cases h
  refine ⟨⟨?_, ?_, ?_, ?_⟩, by simp, ?_⟩
  · intro k p hp
    rcases hget k p hp with h | ⟨_, h, _⟩
    · exact Nat.lt_of_lt_of_le (ha.setThere k p h) hlen
    · rw [h]; exact href
  · intro k l p q hp hq he
    rcases hget k p hp with h | ⟨h, h', _⟩ <;> rcases hget l q hq with g | ⟨g, g', _⟩
    · exact ha.setOwn k l p q h g he
    · exact absurd (he.trans g') (hnot k p h)
    · exact absurd (he.symm.trans h') (hnot l q g)
    · rw [h, g]
  · rintro k r ⟨p, hp, hr⟩
    rcases hget k p hp with h | ⟨_, _, h⟩
    · exact ha.counterThere k r ⟨p, h, hr⟩
    · rw [h] at hr; cases hr
  · rintro k l r ⟨p, hp, hr⟩ ⟨q, hq, hs⟩
    rcases hget k p hp with h | ⟨_, _, h⟩
    · rcases hget l q hq with g | ⟨_, _, g⟩
      · exact ha.counterOwn k l r ⟨p, h, hr⟩ ⟨q, g, hs⟩
      · rw [g] at hs; cases hs
    · rw [h] at hr; cases hr
  · intro k p hp
    refine ⟨by rw [List.getElem?_append_left (List.getElem?_eq_some_iff.1 hp).1]; exact hp, ?_⟩
    show ({ p.st with eomis := sets.getD p.ref [], counter := _ } : State) = _
    rw [hsets _ (ha.setThere k p hp)]
    rfl

/-! ### concrete -/

/-- a set with the ending 는다, a counter, and two extractors with that set and the stems 먹 and 잡 -/
def sharedWorld : World :=
  let c : EC.State := { counter := [("먹는다".toList, 3), ("잡는다".toList, 2), ("먹지만".toList, 4), ("잡지만".toList, 2)], countSum := 11, coverage := 0 }
  let a : Args := { nouns := [], josas := some ["이".toList], adjectives := some [], verbs := some ["먹".toList, "잡".toList], eomis := some 0, doEomi := true, verbose := false }
  let w := new [] [] [] [] { sets := [["는다".toList]], counters := [c] } a
  new [] [] [] [] w { a with doEomi := false }

/-- a training with the counter -/
def sharedTrain (i : Nat) (m : Int) : Nat × Op := (i, .train id id { numFeatures := 2 } (.counter 0) m)

/-- the words reported by the `i`-th extractor after some calls -/
def sharedWords (cs : List (Nat × Op)) (i : Nat) (given : List (Str × Int)) : Option (List Str) :=
  match calls (fun _ _ => false) sharedWorld cs with
  | .error _ => none
  | .ok w => match answer w i id given 0 with
    | .error _ => none
    | .ok out => some (Dict.keys out.1 ++ Dict.keys out.2)

/-- **C97**, finding: extractors that share a set of endings or a counter do interfere. The second extractor does not learn endings. It does not know 먹지만, but it does after the
    first one has been trained (and has learnt 지만). And when the second was trained with a counter, training the first with the same counter and a larger minimum takes
    words away from the second. -/
theorem C97_shared :
    sharedWords [] 1 [("먹지만".toList, 4)] = some [] ∧ sharedWords [sharedTrain 0 2] 1 [("먹지만".toList, 4)] = some ["먹지만".toList] ∧
    sharedWords [sharedTrain 1 2] 1 [] = some ["먹는다".toList, "잡는다".toList] ∧ sharedWords [sharedTrain 1 2, sharedTrain 0 3] 1 [] = some ["먹는다".toList] := by
  refine ⟨by decide +kernel, by decide +kernel, by decide +kernel, by decide +kernel⟩

/-- two extractors that share nothing: the second is untouched by the first -/
example : let w := new [] [] [] ["는다".toList] (new [] [] [] ["는다".toList] { counters := [{}, {}] } { nouns := [] }) { nouns := [] }
    PredApart w ∧ OwnCounters w [(0, .train id id {} (.counter 0) 2), (1, .train id id {} (.counter 1) 2), (1, .extract id [] 1)] := by
  intro w
  have h0 : PredApart ({ counters := [{}, {}] } : World) :=
    ⟨fun i o h => by simp at h, fun i j o p h => by simp at h, fun i r ⟨o, h, _⟩ => by simp at h, fun i j r ⟨o, h, _⟩ => by simp at h⟩
  have h1 := (C97_new [] [] [] ["는다".toList] _ h0 { nouns := [] } (fun r h => by cases h)).1
  refine ⟨(C97_new [] [] [] ["는다".toList] _ h1 { nouns := [] } (fun r h => by cases h)).1, ?_⟩
  have hh : ∀ k r, ¬ HoldsCounter w k r := by
    rintro k r ⟨o, h, hr⟩
    match k with
    | 0 => cases h; cases hr
    | 1 => cases h; cases hr
    | k + 2 => cases h
  have hp : ∀ k r, PassesCounter [(0, Op.train id id {} (.counter 0) 2), (1, .train id id {} (.counter 1) 2), (1, .extract id [] 1)] k r → k = r ∧ r < 2 := by
    rintro k r ⟨a, b, c, m, h⟩
    rcases List.mem_cons.1 h with h | h
    · cases h; exact ⟨rfl, by decide⟩
    · rcases List.mem_cons.1 h with h | h
      · cases h; exact ⟨rfl, by decide⟩
      · rcases List.mem_cons.1 h with h | h
        · cases h
        · cases h
  intro i r h
  refine ⟨(hp i r h).2, ?_⟩
  rintro k (h' | h')
  · rw [(hp k r h').1, (hp i r h).1]
  · exact absurd h' (hh k r)

end Props
