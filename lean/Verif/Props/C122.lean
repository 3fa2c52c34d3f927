import Verif.Model.ScoreHeap
import Mathlib.Data.List.Nodup
/-! C122: a tokenizer and the dict it was given. -/
namespace Props
open Py ScoreHeap

/-- the contents of the dicts the caller made, in the order it made them, after a program: what was last put into each -/
def callerDicts (ops : List Op) : List (Dict Str Rat) :=
  ops.foldl (fun ds o => match o with
    | .newDict d => ds ++ [d]
    | .change h d => ds.set h d
    | .make _ _ => ds
    | .makeLR .. => ds) []

/-- what an object just made with the contents `d` answers -/
def fresh (k : Kind) (d : Dict Str Rat) (tolerance : Rat) (compose : Bool) (sentence : Str) : PyM (List Str) :=
  match k with
  | .left ds => LTok.tokenize d ds tolerance sentence
  | .maxScore maxLength ds => MaxScore.tokenize d maxLength ds sentence
  | .nounMatch => NounTok.matchTokenize d sentence compose
  | .nounLeft => .ok (NounTok.tokenizeL (fun w => decide (w ∈ Dict.keys d)) sentence compose)

private theorem ask_fresh (k : Kind) (d : Dict Str Rat) (tolerance : Rat) (compose : Bool) (sentence : Str) :
    ask k d tolerance compose sentence = fresh k d tolerance compose sentence := by
  cases k with
  | left ds => rfl
  | maxScore m ds => rfl
  | nounMatch => rfl
  | nounLeft =>
    have : (fun w => (Dict.get? d w).isSome) = (fun w => decide (w ∈ Dict.keys d)) := by
      funext w
      rw [Bool.eq_iff_iff, decide_eq_true_iff]
      exact Dict.isSome_get?_iff (d := d) (k := w)
    simp only [ask, fresh, this]

private structure Inv (w : World) (ds : List (Dict Str Rat)) : Prop where
  nodup : w.named.Nodup
  named : ∀ r ∈ w.named, r < w.heap.length
  toks : ∀ x ∈ w.toks, x.2 < w.heap.length
  same : ds = w.named.map w.at

private theorem at_append {w : World} (d : Dict Str Rat) (n : List Nat) (t : List (Kind × Nat)) (q : List (MaxLR.Config × Nat × Nat)) {r : Nat} (h : r < w.heap.length) :
    (⟨w.heap ++ [d], n, t, q⟩ : World).at r = w.at r := by
  simp [World.at, List.getElem?_append_left h]

private theorem inv_own {w : World} {ds : List (Dict Str Rat)} (h : Inv w ds) (k : Kind) : Inv (w.own k) ds := by
  refine ⟨h.nodup, fun r hr => ?_, fun x hx => ?_, ?_⟩
  · have := h.named r hr; simp [World.own]; omega
  · simp only [World.own, List.mem_append, List.mem_singleton] at hx
    simp only [World.own, List.length_append, List.length_singleton]
    rcases hx with hx | rfl
    · have := h.toks x hx; omega
    · dsimp only; omega
  · rw [h.same]
    apply List.map_congr_left
    intro r hr
    exact (at_append _ _ _ _ (h.named r hr)).symm

private theorem inv_pref {w : World} {ds : List (Dict Str Rat)} (h : Inv w ds) (a : Option Nat) :
    Inv (w.pref a).1 ds ∧ (w.pref a).2 < (w.pref a).1.heap.length ∧ (w.pref a).1.named = w.named ∧ (w.pref a).1.toks = w.toks ∧
      (w.pref a).1.lrs = w.lrs ∧ w.heap.length ≤ (w.pref a).1.heap.length ∧ ∀ r < w.heap.length, (w.pref a).1.at r = w.at r := by
  have hn : Inv { w with heap := w.heap ++ [[]] } ds := by
    refine ⟨h.nodup, fun r hr => ?_, fun x hx => ?_, ?_⟩
    · have := h.named r hr; simp; omega
    · have := h.toks x hx; simp; omega
    · rw [h.same]
      apply List.map_congr_left
      intro r hr
      exact (at_append _ _ _ _ (h.named r hr)).symm
  unfold World.pref
  split
  · exact ⟨hn, by simp, rfl, rfl, rfl, by simp, fun r hr => at_append _ _ _ _ hr⟩
  · rename_i r hr
    split
    · exact ⟨hn, by simp, rfl, rfl, rfl, by simp, fun r hr => at_append _ _ _ _ hr⟩
    · refine ⟨h, ?_, rfl, rfl, rfl, Nat.le_refl _, fun _ _ => rfl⟩
      cases a with
      | none => cases hr
      | some i => exact h.named r (List.mem_of_getElem? hr)

private theorem inv_step {w : World} {ds : List (Dict Str Rat)} (h : Inv w ds) (o : Op) :
    Inv (ScoreHeap.step w o) (match o with
      | .newDict d => ds ++ [d]
      | .change h d => ds.set h d
      | .make _ _ => ds
      | .makeLR .. => ds) := by
  cases o with
  | newDict d =>
    refine ⟨?_, fun r hr => ?_, fun x hx => ?_, ?_⟩
    · show (w.named ++ [w.heap.length]).Nodup
      rw [List.nodup_append]
      refine ⟨h.nodup, by simp, ?_⟩
      intro a ha b hb
      simp at hb
      have := h.named a ha
      omega
    · simp only [ScoreHeap.step, List.mem_append, List.mem_singleton] at hr
      simp only [ScoreHeap.step, List.length_append, List.length_singleton]
      rcases hr with hr | rfl
      · have := h.named r hr; omega
      · omega
    · have := h.toks x hx; simp [ScoreHeap.step]; omega
    · simp only [ScoreHeap.step]
      rw [h.same, List.map_append, List.map_singleton]
      congr 1
      · apply List.map_congr_left
        intro r hr
        exact (at_append _ _ _ _ (h.named r hr)).symm
      · simp [World.at]
  | change i d =>
    simp only [ScoreHeap.step]
    cases hi : w.named[i]? with
    | none =>
      dsimp only
      have : ds.set i d = ds := by
        apply List.set_eq_of_length_le
        rw [h.same, List.length_map]
        exact List.getElem?_eq_none_iff.1 hi
      rw [this]; exact h
    | some r =>
      dsimp only
      refine ⟨h.nodup, fun r hr => ?_, fun x hx => ?_, ?_⟩
      · have := h.named r hr; simpa using this
      · have := h.toks x hx; simpa using this
      · rw [h.same]
        obtain ⟨hlt, hr⟩ := List.getElem?_eq_some_iff.1 hi
        apply List.ext_getElem?
        intro j
        rw [List.getElem?_set, List.length_map, List.getElem?_map, List.getElem?_map]
        by_cases hij : i = j
        · subst hij
          rw [if_pos rfl, if_pos hlt, hi, Option.map_some]
          simp [World.at, h.named r (List.mem_of_getElem? hi)]
        · rw [if_neg hij]
          cases hj : w.named[j]? with
          | none => rfl
          | some q =>
            rw [Option.map_some, Option.map_some]
            obtain ⟨hlt', hq⟩ := List.getElem?_eq_some_iff.1 hj
            have hne : r ≠ q := by
              intro e
              rw [← hr, ← hq] at e
              exact hij ((List.nodup_iff_injective_getElem.1 h.nodup) (a₁ := ⟨i, hlt⟩) (a₂ := ⟨j, hlt'⟩) e |> Fin.mk.inj_iff.1)
            simp [World.at, List.getElem?_set_ne hne]
  | make k a =>
    cases a with
    | none =>
      simp only [ScoreHeap.step]
      split
      · exact h
      · exact inv_own h k
    | some i =>
      simp only [ScoreHeap.step]
      cases hi : w.named[i]? with
      | none => exact h
      | some r =>
        have hb : Inv { w with toks := w.toks ++ [(k, r)] } ds := by
          refine ⟨h.nodup, h.named, fun x hx => ?_, h.same⟩
          simp only [List.mem_append, List.mem_singleton] at hx
          rcases hx with hx | rfl
          · exact h.toks x hx
          · exact h.named r (List.mem_of_getElem? hi)
        dsimp only
        split
        · exact hb
        · split
          · exact inv_own h k
          · exact hb
  | makeLR dl dr pl pr a b c d =>
    obtain ⟨h1, _⟩ := inv_pref h pl
    obtain ⟨h2, _⟩ := inv_pref h1 pr
    exact ⟨h2.nodup, h2.named, h2.toks, h2.same⟩

private theorem inv_run (ops : List Op) : Inv (run ops) (callerDicts ops) := by
  unfold run callerDicts
  have key : ∀ (ops : List Op) (w : World) (ds : List (Dict Str Rat)), Inv w ds → Inv (ops.foldl ScoreHeap.step w)
      (ops.foldl (fun ds o => match o with
        | .newDict d => ds ++ [d]
        | .change h d => ds.set h d
        | .make _ _ => ds
        | .makeLR .. => ds) ds) := by
    intro ops
    induction ops with
    | nil => intro w ds h; exact h
    | cons o ops ih => intro w ds h; exact ih _ _ (inv_step h o)
  exact key ops {} [] ⟨by simp, by simp, by simp, rfl⟩

/-- names and tokenizers stay what they are -/
private theorem pref_same (w : World) (a : Option Nat) : (w.pref a).1.named = w.named ∧ (w.pref a).1.toks = w.toks ∧ (w.pref a).1.lrs = w.lrs := by
  unfold World.pref
  split
  · exact ⟨rfl, rfl, rfl⟩
  · split <;> exact ⟨rfl, rfl, rfl⟩

private theorem step_keeps (w : World) (o : Op) :
    (∀ (i : Nat) x, w.named[i]? = some x → (ScoreHeap.step w o).named[i]? = some x) ∧
    (∀ (i : Nat) x, w.toks[i]? = some x → (ScoreHeap.step w o).toks[i]? = some x) ∧
    (∀ (i : Nat) x, w.lrs[i]? = some x → (ScoreHeap.step w o).lrs[i]? = some x) := by
  have ap : ∀ {α : Type} (l m : List α) (i : Nat) (x : α), l[i]? = some x → (l ++ m)[i]? = some x := by
    intro α l m i x h
    rw [List.getElem?_append_left (List.getElem?_eq_some_iff.1 h).1, h]
  cases o with
  | newDict d => exact ⟨fun i x h => ap _ _ i x h, fun i x h => h, fun i x h => h⟩
  | change j d =>
    simp only [ScoreHeap.step]
    split <;> exact ⟨fun i x h => h, fun i x h => h, fun i x h => h⟩
  | make k a =>
    cases a with
    | none =>
      simp only [ScoreHeap.step, World.own]
      split
      · exact ⟨fun i x h => h, fun i x h => h, fun i x h => h⟩
      · exact ⟨fun i x h => h, fun i x h => ap _ _ i x h, fun i x h => h⟩
    | some j =>
      simp only [ScoreHeap.step, World.own]
      split
      · exact ⟨fun i x h => h, fun i x h => h, fun i x h => h⟩
      · split
        · exact ⟨fun i x h => h, fun i x h => ap _ _ i x h, fun i x h => h⟩
        · split <;> exact ⟨fun i x h => h, fun i x h => ap _ _ i x h, fun i x h => h⟩
  | makeLR dl dr pl pr a b c d =>
    obtain ⟨n1, t1, l1⟩ := pref_same w pl
    obtain ⟨n2, t2, l2⟩ := pref_same (w.pref pl).1 pr
    refine ⟨fun i x h => ?_, fun i x h => ?_, fun i x h => ?_⟩
    · show ((w.pref pl).1.pref pr).1.named[i]? = some x
      rw [n2, n1]; exact h
    · show ((w.pref pl).1.pref pr).1.toks[i]? = some x
      rw [t2, t1]; exact h
    · show (((w.pref pl).1.pref pr).1.lrs ++ _)[i]? = some x
      rw [l2, l1]; exact ap _ _ i x h

private theorem run_keeps (ops : List Op) : ∀ w : World,
    (∀ (i : Nat) x, w.named[i]? = some x → (ops.foldl ScoreHeap.step w).named[i]? = some x) ∧
    (∀ (i : Nat) x, w.toks[i]? = some x → (ops.foldl ScoreHeap.step w).toks[i]? = some x) ∧
    (∀ (i : Nat) x, w.lrs[i]? = some x → (ops.foldl ScoreHeap.step w).lrs[i]? = some x) := by
  induction ops with
  | nil => intro w; exact ⟨fun i x h => h, fun i x h => h, fun i x h => h⟩
  | cons o ops ih =>
    intro w
    obtain ⟨h1, h2, h5⟩ := step_keeps w o
    obtain ⟨h3, h4, h6⟩ := ih (ScoreHeap.step w o)
    exact ⟨fun i x h => h3 i x (h1 i x h), fun i x h => h4 i x (h2 i x h), fun i x h => h6 i x (h5 i x h)⟩

/-- a dict the caller has no name for stays empty -/
private structure Hidden (w : World) (r : Nat) : Prop where
  out : r ∉ w.named
  lt : r < w.heap.length
  empty : w.at r = []

private theorem hidden_own {w : World} {r : Nat} (h : Hidden w r) (k : Kind) : Hidden (w.own k) r := by
  refine ⟨h.out, ?_, ?_⟩
  · have := h.lt; simp [World.own]; omega
  · have := at_append (w := w) [] w.named (w.toks ++ [(k, w.heap.length)]) w.lrs h.lt
    rw [World.own, this]; exact h.empty

private theorem hidden_pref {w : World} {r : Nat} (h : Hidden w r) (a : Option Nat) : Hidden (w.pref a).1 r := by
  have hn : Hidden { w with heap := w.heap ++ [[]] } r := by
    refine ⟨h.out, ?_, ?_⟩
    · have := h.lt; simp; omega
    · rw [at_append _ _ _ _ h.lt]; exact h.empty
  unfold World.pref
  split
  · exact hn
  · split
    · exact hn
    · exact h

private theorem hidden_step {w : World} {r : Nat} (h : Hidden w r) (o : Op) : Hidden (ScoreHeap.step w o) r := by
  have hb : ∀ t, Hidden { w with toks := t } r := fun t => ⟨h.out, h.lt, h.empty⟩
  cases o with
  | newDict d =>
    refine ⟨?_, ?_, ?_⟩
    · have := h.out; have := h.lt
      simp only [ScoreHeap.step, List.mem_append, List.mem_singleton]; rintro (h1 | h1)
      · exact absurd h1 h.out
      · omega
    · have := h.lt; simp [ScoreHeap.step]; omega
    · simp only [ScoreHeap.step]; rw [at_append _ _ _ _ h.lt]; exact h.empty
  | change j d =>
    simp only [ScoreHeap.step]
    split
    · exact h
    · rename_i q hq
      refine ⟨h.out, by simpa using h.lt, ?_⟩
      have hne : q ≠ r := by rintro rfl; exact h.out (List.mem_of_getElem? hq)
      have := h.empty
      simpa [World.at, List.getElem?_set_ne hne] using this
  | make k a =>
    cases a with
    | none => simp only [ScoreHeap.step]; split; exact h; exact hidden_own h k
    | some j =>
      simp only [ScoreHeap.step]
      split
      · exact h
      · split
        · exact hb _
        · split
          · exact hidden_own h k
          · exact hb _
  | makeLR dl dr pl pr a b c d =>
    have h2 := hidden_pref (hidden_pref h pl) pr
    exact ⟨h2.out, h2.lt, h2.empty⟩

private theorem hidden_run (ops : List Op) : ∀ {w : World} {r : Nat}, Hidden w r → Hidden (ops.foldl ScoreHeap.step w) r := by
  induction ops with
  | nil => intro w r h; exact h
  | cons o ops ih => intro w r h; exact ih (hidden_step h o)

private theorem run_split (pre post : List Op) (o : Op) : run (pre ++ o :: post) = post.foldl ScoreHeap.step (ScoreHeap.step (run pre) o) := by
  unfold run; rw [List.foldl_append, List.foldl_cons]

private theorem own_answer (pre post : List Op) (o : Op) (k : Kind) (ho : ScoreHeap.step (run pre) o = (run pre).own k) (tol : Rat) (c : Bool) (s : Str) :
    answer (run (pre ++ o :: post)) (run pre).toks.length tol c s = some (fresh k [] tol c s) := by
  rw [run_split, ho]
  have h1 : ((run pre).own k).toks[(run pre).toks.length]? = some (k, (run pre).heap.length) := by simp [World.own]
  have h2 : Hidden ((run pre).own k) (run pre).heap.length := by
    refine ⟨?_, by simp [World.own], by simp [World.own, World.at]⟩
    intro hm
    have := (inv_run pre).named _ hm
    omega
  have h3 := (run_keeps post _).2.1 _ _ h1
  have h4 := (hidden_run post h2).empty
  unfold answer
  rw [h3]
  dsimp only
  rw [h4, ask_fresh]

/-- C122: a tokenizer made at some point of a program with the caller's `h`-th dict answers, at every later point, whatever
    the program did in between, as if it had been given the contents the dict has *now*: changes to the dict show through -
    unless the dict was empty when the tokenizer was made; then it answers as with no scores for ever. Only
    NounLMatchTokenizer follows an initially empty dict too. Changes of other dicts and other tokenizers are never seen. -/
theorem C122_scores (pre post : List Op) (k : Kind) (h : Nat) (d : Dict Str Rat) (hd : (callerDicts pre)[h]? = some d)
    (tolerance : Rat) (compose : Bool) (sentence : Str) :
    ∃ d', (callerDicts (pre ++ .make k (some h) :: post))[h]? = some d' ∧
      answer (run (pre ++ .make k (some h) :: post)) (run pre).toks.length tolerance compose sentence =
        some (fresh k (if d = [] ∧ k ≠ .nounLeft then [] else d') tolerance compose sentence) := by
  have i0 := inv_run pre
  have i1 := inv_run (pre ++ .make k (some h) :: post)
  rw [i0.same, List.getElem?_map] at hd
  cases hn : (run pre).named[h]? with
  | none => rw [hn] at hd; cases hd
  | some r =>
    rw [hn, Option.map_some] at hd
    have hdr : (run pre).at r = d := Option.some.inj hd
    have hstep : ScoreHeap.step (run pre) (.make k (some h)) = if k = .nounLeft then { run pre with toks := (run pre).toks ++ [(k, r)] }
        else if (run pre).at r = [] then (run pre).own k else { run pre with toks := (run pre).toks ++ [(k, r)] } := by
      simp only [ScoreHeap.step, hn]
    have hlater : (run (pre ++ .make k (some h) :: post)).named[h]? = some r := by
      rw [run_split]
      exact (run_keeps post _).1 _ _ ((step_keeps (run pre) _).1 _ _ hn)
    refine ⟨(run (pre ++ .make k (some h) :: post)).at r, ?_, ?_⟩
    · rw [i1.same, List.getElem?_map, hlater, Option.map_some]
    · by_cases hc : d = [] ∧ k ≠ .nounLeft
      · rw [if_pos hc]
        exact own_answer pre post _ k (by rw [hstep, if_neg hc.2, if_pos (by rw [hdr]; exact hc.1)]) _ _ _
      · rw [if_neg hc]
        have hbound : ScoreHeap.step (run pre) (.make k (some h)) = { run pre with toks := (run pre).toks ++ [(k, r)] } := by
          rw [hstep]
          split
          · rfl
          · rename_i hk
            rw [if_neg]
            intro he
            exact hc ⟨by rw [← hdr]; exact he, hk⟩
        have h1 : (ScoreHeap.step (run pre) (.make k (some h))).toks[(run pre).toks.length]? = some (k, r) := by
          rw [hbound]; simp
        have h3 := (run_keeps post _).2.1 _ _ h1
        rw [← run_split] at h3
        unfold answer
        rw [h3]
        dsimp only
        rw [ask_fresh]

/-- C122: a tokenizer made without a dict answers as with no scores, for ever: two such objects share nothing. -/
theorem C122_none (pre post : List Op) (k : Kind) (hk : k ≠ .nounLeft) (tolerance : Rat) (compose : Bool) (sentence : Str) :
    answer (run (pre ++ .make k none :: post)) (run pre).toks.length tolerance compose sentence =
      some (fresh k [] tolerance compose sentence) :=
  own_answer pre post _ k (by simp only [ScoreHeap.step]; rw [if_neg hk]) _ _ _

/-! ### MaxLRScoreTokenizer -/

/-- the contents of an argument: nothing when it is not given -/
def argument (ds : List (Dict Str Rat)) (h : Option Nat) : Dict Str Rat := (h.bind (fun h => ds[h]?)).getD []

private theorem given_eq {w : World} {ds : List (Dict Str Rat)} (i : Inv w ds) (h : Option Nat) : w.given h = argument ds h := by
  unfold World.given argument
  cases h with
  | none => rfl
  | some h =>
    show (match w.named[h]? with | none => [] | some r => w.at r) = (ds[h]?).getD []
    rw [i.same, List.getElem?_map]
    cases w.named[h]? <;> rfl

/-- the dict kept for a preference: what it holds at any later point -/
private theorem pref_later {w : World} {ds : List (Dict Str Rat)} (i : Inv w ds) (h : Option Nat) :
    (argument ds h = [] ∧ Hidden (w.pref h).1 (w.pref h).2) ∨
    (argument ds h ≠ [] ∧ ∃ j, h = some j ∧ w.named[j]? = some (w.pref h).2) := by
  rw [← given_eq i]
  have hid : Hidden { w with heap := w.heap ++ [[]] } w.heap.length := by
    refine ⟨?_, by simp, by simp [World.at]⟩
    intro hm
    have := i.named _ hm
    omega
  cases h with
  | none => exact Or.inl ⟨rfl, hid⟩
  | some j =>
    cases hj : w.named[j]? with
    | none =>
      left
      simp only [World.given, World.pref, Option.bind_some, hj]
      exact ⟨trivial, hid⟩
    | some r =>
      simp only [World.given, World.pref, Option.bind_some, hj]
      by_cases he : w.at r = []
      · left; rw [if_pos he]; exact ⟨he, hid⟩
      · right; rw [if_neg he]; exact ⟨he, j, rfl, hj⟩

/-- C122: a MaxLRScoreTokenizer made with the caller's dicts (any of them left out) has copied `Dl` and `Dr`: it answers at
    every later point as the object constructed from their contents at the time, whatever happened to them. But it keeps
    the preference dicts: the preferences added to the scores are the ones these dicts hold *now* (none for ever if a dict was
    empty or missing when the object was made), while the words of a preference dict were added to `Dl`, `Dr` once. -/
theorem C122_lr (pre post : List Op) (dl dr pl pr : Option Nat) (x y z v : Rat) (sentence : Str) :
    let ops := pre ++ .makeLR dl dr pl pr x y z v :: post
    let live := fun h => if argument (callerDicts pre) h = [] then [] else argument (callerDicts ops) h
    ∃ c norm, MaxLR.construct none none (some (.dict (argument (callerDicts pre) dl))) (some (.dict (argument (callerDicts pre) dr)))
        (some (argument (callerDicts pre) pl)) (some (argument (callerDicts pre) pr)) x y z v = .ok (c, norm) ∧
      answerLR (run ops) (run pre).lrs.length sentence = some (MaxLR.tokenize { c with Pl := live pl, Pr := live pr } sentence) := by
  dsimp only
  have i0 := inv_run pre
  have i1 := inv_run (pre ++ .makeLR dl dr pl pr x y z v :: post)
  refine ⟨_, _, rfl, ?_⟩
  have hl := pref_later i0 pl
  obtain ⟨ia, _, na, _, la, _⟩ := inv_pref i0 pl
  have hr := pref_later ia pr
  obtain ⟨_, _, nb, _, lb, _⟩ := inv_pref ia pr
  have hs : ScoreHeap.step (run pre) (.makeLR dl dr pl pr x y z v) = (run pre).makeLR dl dr pl pr x y z v := rfl
  have hlive : ∀ (h : Option Nat) (r : Nat),
      ((argument (callerDicts pre) h = [] ∧ Hidden ((run pre).makeLR dl dr pl pr x y z v) r) ∨
        (argument (callerDicts pre) h ≠ [] ∧ ∃ j, h = some j ∧ (run pre).named[j]? = some r)) →
      (run (pre ++ .makeLR dl dr pl pr x y z v :: post)).at r =
        if argument (callerDicts pre) h = [] then [] else argument (callerDicts (pre ++ .makeLR dl dr pl pr x y z v :: post)) h := by
    intro h r hh
    rcases hh with ⟨h1, h2⟩ | ⟨h1, j, rfl, h2⟩
    · rw [if_pos h1, run_split, hs]
      exact (hidden_run post h2).empty
    · rw [if_neg h1]
      have h3 : (run (pre ++ .makeLR dl dr pl pr x y z v :: post)).named[j]? = some r := by
        rw [run_split]
        exact (run_keeps post _).1 _ _ ((step_keeps (run pre) _).1 _ _ h2)
      unfold argument
      rw [i1.same]
      simp [List.getElem?_map, h3]
  have el := hlive pl ((run pre).pref pl).2 (by
    rcases hl with ⟨h1, h2⟩ | h
    · left
      have h3 := hidden_pref h2 pr
      exact ⟨h1, ⟨h3.out, h3.lt, h3.empty⟩⟩
    · exact Or.inr h)
  have er := hlive pr (((run pre).pref pl).1.pref pr).2 (by
    rcases hr with ⟨h1, h2⟩ | ⟨h1, j, hj, h2⟩
    · exact Or.inl ⟨h1, ⟨h2.out, h2.lt, h2.empty⟩⟩
    · exact Or.inr ⟨h1, j, hj, by rw [na] at h2; exact h2⟩)
  have h1 : ((run pre).makeLR dl dr pl pr x y z v).lrs[(run pre).lrs.length]? =
      some (MaxLR.make (MaxLR.update [] ((run pre).given dl)) (MaxLR.update [] ((run pre).given dr)) ((run pre).given pl) ((run pre).given pr) x y z v,
        ((run pre).pref pl).2, (((run pre).pref pl).1.pref pr).2) := by
    unfold World.makeLR
    dsimp only
    rw [lb, la]
    simp
  rw [given_eq i0, given_eq i0, given_eq i0, given_eq i0] at h1
  have h3 := (run_keeps post _).2.2 _ _ h1
  rw [← hs, ← run_split] at h3
  unfold answerLR
  rw [h3]
  dsimp only
  rw [el, er]
  rfl

/-- C122: so filling the dict after the tokenizer was made has an effect or not depending on whether it held anything then -/
theorem C122_late_violation :
    answer (run [.newDict [], .make (.left 0) (some 0), .change 0 [("먹었".toList, 1)]]) 0 0 true "먹었다고".toList =
      some (.ok ["먹었다고".toList]) ∧
    answer (run [.newDict [("x".toList, 1)], .make (.left 0) (some 0), .change 0 [("먹었".toList, 1)]]) 0 0 true "먹었다고".toList =
      some (.ok ["먹었".toList, "다고".toList]) ∧
    answer (run [.newDict [], .make .nounLeft (some 0), .change 0 [("먹었".toList, 1)]]) 0 0 true "먹었다고".toList =
      some (.ok ["먹었".toList]) := by
  refine ⟨?_, ?_, ?_⟩ <;> decide +kernel

/-- C122: the same object is half a copy and half a view: emptying `Dl` afterwards changes nothing, a preference for a known word put in
    afterwards counts, and one for an unknown word does not, although it would have made the word known at construction -/
theorem C122_lr_violation :
    let made := fun pl => ([.newDict [("ab".toList, 1), ("bcd".toList, 1), ("abc".toList, 1)], .newDict pl,
      .makeLR (some 0) none (some 1) none (3/10) (1/2) (1/2) (3/10), .change 0 []] : List Op)
    let words := fun ops => (answerLR (run ops) 0 "abcd".toList).map (fun r => (r.toOption.getD []).map (·.1))
    words (made [("x".toList, 1)]) = some ["abc".toList, "d".toList] ∧
    words (made [("x".toList, 1)] ++ [.change 1 [("bcd".toList, 5)]]) = some ["a".toList, "bcd".toList] ∧
    words (made [("x".toList, 1)] ++ [.change 1 [("cd".toList, 5)]]) = some ["abc".toList, "d".toList] ∧
    words (made [("cd".toList, 5)]) = some ["ab".toList, "cd".toList] := by
  refine ⟨?_, ?_, ?_, ?_⟩ <;> decide +kernel

/-- a case with something in it: the dict is known to the caller, two tokenizers use it -/
example : (callerDicts [.newDict [("a".toList, 1)], .make (.left 0) (some 0), .make .nounMatch (some 0), .change 0 []])[0]? = some [] := by
  decide +kernel

end Props
