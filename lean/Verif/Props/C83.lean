import Verif.Model.EojeolPattern
import Mathlib.Data.List.Nodup
/-! C83: `EojeolPatternTrainer.train`: which beginnings and ends of tokens are kept, what the graphs count, and when it raises. -/
set_option linter.unusedSimpArgs false
namespace Props
open Py Nested EP

/-! ### specification -/

/-- the tokens whose beginnings and ends are counted: what lies between blanks -/
def blankTokens (sents : List Str) : List Str := sents.flatMap (fun s => (splitOn ' ' s).filter (fun t => t ≠ []))

/-- the tokens of which the graphs are made: what lies between any whitespace -/
def wsTokens (sents : List Str) : List Str := sents.flatMap splitWs

/-- in how many of the tokens `w` is a beginning of at most `maxLeft` characters -/
def leftFreq (maxLeft : Int) (toks : List Str) (w : Str) : Nat := toks.countP (fun t => decide (w ≠ [] ∧ (w.length : Int) ≤ maxLeft ∧ w <+: t))

/-- in how many of the tokens `w` is a proper end of *less* than `maxRight` characters -/
def rightFreq (maxRight : Int) (toks : List Str) (w : Str) : Nat :=
  toks.countP (fun t => decide (w ≠ [] ∧ (w.length : Int) < maxRight ∧ w <:+ t ∧ w ≠ t))

/-- the word sets that are used: given ones, unless one of them is missing or empty -/
structure PatternWords (s : State) (sents wl wr WL WR : List Str) : Prop where
  given : wl ≠ [] → wr ≠ [] → WL = wl ∧ WR = wr
  scannedL : wl = [] ∨ wr = [] → ∀ w, w ∈ WL ↔ 1 ≤ leftFreq s.maxLeft (blankTokens sents) w ∧ s.minFrequency ≤ leftFreq s.maxLeft (blankTokens sents) w
  scannedR : wl = [] ∨ wr = [] → ∀ w, w ∈ WR ↔ 1 ≤ rightFreq s.maxRight (blankTokens sents) w ∧ s.minFrequency ≤ rightFreq s.maxRight (blankTokens sents) w

/-- `lr` counts the tokens cut into a known left part of at most `maxLeft` characters and a known (or empty) right part, `rl` is its transpose -/
structure PatternGraphs (s : State) (sents WL WR : List Str) (lr rl : Nested Str) : Prop where
  lrWf : WF2 lr
  rlWf : WF2 rl
  counts : ∀ l r n, get2 lr l r = some n ↔ l ∈ WL ∧ (r ∈ WR ∨ r = []) ∧ l ≠ [] ∧ (l.length : Int) ≤ s.maxLeft ∧
    n = (wsTokens sents).countP (fun t => decide (t = l ++ r)) ∧ 1 ≤ n
  transpose : ∀ l r, get2 rl r l = get2 lr l r

/-- the progress messages divide by zero: fewer than 40 sentences, or, while scanning, an empty sentence where a message is due -/
def PatternDivides (sents : List Str) (scan : Prop) : Prop :=
  sents ≠ [] ∧ (sents.length < 40 ∨ scan ∧ ∃ i, sents[i]? = some [] ∧ i % (sents.length / 40) = 0)

/-! ### proofs -/

private theorem mem_fromOne {n : Int} {i : Nat} : i ∈ fromOne n ↔ 1 ≤ i ∧ (i : Int) < n := by
  unfold fromOne
  rw [List.mem_map]
  constructor
  · rintro ⟨k, hk, rfl⟩; rw [List.mem_range] at hk; omega
  · rintro ⟨h1, h2⟩; exact ⟨i - 1, by rw [List.mem_range]; omega, by omega⟩

private theorem nodup_fromOne (n : Int) : (fromOne n).Nodup := by
  unfold fromOne
  exact (List.nodup_range).map (fun a b h => by simpa using h)

private theorem scanTokens_eq (sents : List Str) : sents.flatMap scanTokens = blankTokens sents := by
  unfold blankTokens scanTokens
  congr 1; funext s; congr 1; funext t; cases t <;> simp

private theorem progress_silent {s : State} (h : s.verbose = false) (c : Nat) (i : Int) (n : Nat) : progress s c i n = .ok () := by
  unfold progress; rw [if_pos h]

private theorem progress_err {s : State} {c : Nat} {i : Int} {n : Nat} {e : PyErr} (h : progress s c i n = .error e) : e = .zeroDivision := by
  unfold progress at h
  split at h
  · cases h
  · split at h
    · cases h; rfl
    · split at h <;> cases h; rfl

private theorem scanGo_ok {s : State} {ckpt : Nat} (sents : List Str) : ∀ (i : Nat) (l r : Dict Str Nat),
    (s.verbose = true → sents ≠ [] → ckpt ≠ 0 ∧ ∀ k, sents[k]? = some [] → (i + k) % ckpt ≠ 0) →
    scanGo s ckpt i l r sents = .ok ((sents.flatMap scanTokens).foldl (countLefts s) l, (sents.flatMap scanTokens).foldl (countRights s) r) := by
  induction sents with
  | nil => intro i l r _; rfl
  | cons sent sents ih =>
    intro i l r h
    have hp : progress s ckpt ((scanTokens sent).foldl (fun j t => indexAfter (rightEnd s t) (indexAfter (leftEnd s t) j)) (i : Int)) sent.length = .ok () := by
      unfold progress
      cases hv : s.verbose with
      | false => rfl
      | true =>
        obtain ⟨h1, h2⟩ := h hv (by simp)
        rw [if_neg (by simp), if_neg h1, if_neg]
        rintro ⟨h3, h4⟩
        have : sent = [] := List.length_eq_zero_iff.1 h4
        subst this
        have := h2 0 rfl
        have e : scanTokens [] = [] := by decide
        rw [e] at h3
        simp only [List.foldl_nil] at h3
        rw [← Int.natCast_emod] at h3
        rw [Nat.add_zero] at this
        exact this (by exact_mod_cast h3)
    simp only [scanGo]
    rw [hp]
    simp only
    rw [ih, List.flatMap_cons, List.foldl_append, List.foldl_append]
    intro hv hne
    obtain ⟨h1, h2⟩ := h hv (by simp)
    refine ⟨h1, fun k hk => ?_⟩
    have := h2 (k + 1) (by simpa using hk)
    rwa [show i + (k + 1) = i + 1 + k by omega] at this

private theorem scanGo_err {s : State} {ckpt : Nat} (hv : s.verbose = true) (sents : List Str) : ∀ (i : Nat) (l r : Dict Str Nat),
    sents ≠ [] → (ckpt = 0 ∨ ∃ k, sents[k]? = some [] ∧ (i + k) % ckpt = 0) → scanGo s ckpt i l r sents = .error .zeroDivision := by
  induction sents with
  | nil => intro i l r h _; exact absurd rfl h
  | cons sent sents ih =>
    intro i l r _ h
    simp only [scanGo]
    cases hp : progress s ckpt ((scanTokens sent).foldl (fun j t => indexAfter (rightEnd s t) (indexAfter (leftEnd s t) j)) (i : Int)) sent.length with
    | error e => rw [progress_err hp]
    | ok u =>
      simp only
      have h0 : ckpt ≠ 0 := by
        rintro rfl
        unfold progress at hp
        rw [hv] at hp
        simp at hp
      rcases h with h | ⟨k, hk, hm⟩
      · exact absurd h h0
      · cases k with
        | zero =>
          simp only [List.getElem?_cons_zero, Option.some.injEq] at hk
          subst hk
          have e : scanTokens [] = [] := by decide
          rw [e] at hp
          unfold progress at hp
          rw [hv, if_neg (by simp), if_neg h0, if_pos] at hp
          · cases hp
          · refine ⟨?_, rfl⟩
            simp only [List.foldl_nil]
            rw [← Int.natCast_emod]
            rw [Nat.add_zero] at hm
            exact_mod_cast hm
        | succ k =>
          have hk' : sents[k]? = some [] := by simpa using hk
          refine ih _ _ _ (by rintro rfl; simp at hk') (.inr ⟨k, hk', ?_⟩)
          rwa [show i + 1 + k = i + (k + 1) by omega]

private theorem foldl_flatMap' {α β γ : Type} (f : γ → β → γ) (h : α → List β) (xs : List α) (c : γ) :
    xs.foldl (fun c x => (h x).foldl f c) c = (xs.flatMap h).foldl f c := by
  induction xs generalizing c with
  | nil => rfl
  | cons x xs ih => rw [List.foldl_cons, List.flatMap_cons, List.foldl_append, ih]

private theorem countP_flatMap_one {α β : Type} (xs : List α) (h : α → List β) (p : β → Bool) (q : α → Bool)
    (he : ∀ x ∈ xs, (h x).countP p = if q x = true then 1 else 0) : (xs.flatMap h).countP p = xs.countP q := by
  induction xs with
  | nil => rfl
  | cons x xs ih =>
    rw [List.flatMap_cons, List.countP_append, ih (fun y hy => he y (by simp [hy])), he x (by simp), List.countP_cons]
    omega

private theorem countP_nodup {β : Type} {xs : List β} (hn : xs.Nodup) {p : β → Bool} (hu : ∀ a ∈ xs, ∀ b ∈ xs, p a = true → p b = true → a = b) :
    xs.countP p = if xs.any p = true then 1 else 0 := by
  induction xs with
  | nil => rfl
  | cons x xs ih =>
    rw [List.nodup_cons] at hn
    rw [List.countP_cons, ih hn.2 (fun a ha b hb => hu a (by simp [ha]) b (by simp [hb])), List.any_cons]
    cases hx : p x with
    | false => simp
    | true =>
      have : xs.any p = false := by
        rw [List.any_eq_false]
        intro y hy hpy
        have := hu x (by simp) y (by simp [hy]) hx hpy
        exact hn.1 (this ▸ hy)
      simp [this]

private theorem sum_map_one {α : Type} (xs : List α) : (xs.map (fun _ => 1)).sum = xs.length := by
  induction xs with
  | nil => rfl
  | cons x xs ih => rw [List.map_cons, List.sum_cons, ih, List.length_cons]; omega

private theorem leftFreq_eq (s : State) (toks : List Str) (w : Str) :
    Dict.getD (toks.foldl (countLefts s) []) w 0 = leftFreq s.maxLeft toks w ∧ (w ∈ Dict.keys (toks.foldl (countLefts s) []) ↔ 1 ≤ leftFreq s.maxLeft toks w) ∧
    Dict.WF (toks.foldl (countLefts s) []) := by
  have e : toks.foldl (countLefts s) [] = (toks.flatMap (fun t => (fromOne (leftEnd s t)).map (t.take ·))).foldl (fun d x => Dict.add d (id x) ((fun _ => 1) x)) [] := by
    rw [← foldl_flatMap']
    congr 1
    funext d t
    unfold countLefts
    rw [List.foldl_map]; rfl
  have hc : (toks.flatMap (fun t => (fromOne (leftEnd s t)).map (t.take ·))).countP (fun x => decide (x = w)) = leftFreq s.maxLeft toks w := by
    unfold leftFreq
    refine countP_flatMap_one _ _ _ _ (fun t _ => ?_)
    have hlen : ∀ i ∈ fromOne (leftEnd s t), (t.take i).length = i := by
      intro i hi
      rw [mem_fromOne] at hi
      unfold leftEnd at hi
      rw [List.length_take]; omega
    rw [List.countP_map, countP_nodup (nodup_fromOne _)]
    · congr 1
      rw [eq_iff_iff, List.any_eq_true, decide_eq_true_iff]
      constructor
      · rintro ⟨i, hi, h⟩
        have hl := hlen i hi
        simp only [Function.comp, decide_eq_true_iff] at h
        rw [mem_fromOne] at hi
        unfold leftEnd at hi
        subst h
        refine ⟨by intro h0; rw [h0] at hl; simp at hl; omega, by omega, List.take_prefix _ _⟩
      · rintro ⟨h1, h2, h3⟩
        refine ⟨w.length, ?_, ?_⟩
        · rw [mem_fromOne]; unfold leftEnd
          have := List.length_pos_iff.2 h1
          have := h3.length_le
          omega
        · simp only [Function.comp, decide_eq_true_iff]
          exact (List.prefix_iff_eq_take.1 h3).symm
    · intro a ha b hb h1 h2
      simp only [Function.comp, decide_eq_true_iff] at h1 h2
      rw [← hlen a ha, ← hlen b hb, h1, h2]
  have hd : Dict.getD (toks.foldl (countLefts s) []) w 0 = leftFreq s.maxLeft toks w := by
    rw [e, Dict.getD_foldl_add, sum_map_one, ← hc, List.countP_eq_length_filter]
    simp [Dict.getD]
  refine ⟨hd, ?_, ?_⟩
  · rw [e, Dict.mem_keys_foldl_add, ← hc, Nat.succ_le_iff, List.countP_pos_iff]
    simp
  · rw [e]; exact Dict.WF.foldl_add _ _ _ Dict.wf_nil

private theorem rightFreq_eq (s : State) (toks : List Str) (w : Str) :
    Dict.getD (toks.foldl (countRights s) []) w 0 = rightFreq s.maxRight toks w ∧ (w ∈ Dict.keys (toks.foldl (countRights s) []) ↔ 1 ≤ rightFreq s.maxRight toks w) ∧
    Dict.WF (toks.foldl (countRights s) []) := by
  have e : toks.foldl (countRights s) [] = (toks.flatMap (fun t => (fromOne (rightEnd s t)).map (fun i => t.drop (t.length - i)))).foldl (fun d x => Dict.add d (id x) ((fun _ => 1) x)) [] := by
    rw [← foldl_flatMap']
    congr 1
    funext d t
    unfold countRights
    rw [List.foldl_map]; rfl
  have hc : (toks.flatMap (fun t => (fromOne (rightEnd s t)).map (fun i => t.drop (t.length - i)))).countP (fun x => decide (x = w)) = rightFreq s.maxRight toks w := by
    unfold rightFreq
    refine countP_flatMap_one _ _ _ _ (fun t _ => ?_)
    have hlen : ∀ i ∈ fromOne (rightEnd s t), (t.drop (t.length - i)).length = i := by
      intro i hi
      rw [mem_fromOne] at hi
      unfold rightEnd at hi
      rw [List.length_drop]; omega
    rw [List.countP_map, countP_nodup (nodup_fromOne _)]
    · congr 1
      rw [eq_iff_iff, List.any_eq_true, decide_eq_true_iff]
      constructor
      · rintro ⟨i, hi, h⟩
        have hl := hlen i hi
        simp only [Function.comp, decide_eq_true_iff] at h
        rw [mem_fromOne] at hi
        unfold rightEnd at hi
        subst h
        refine ⟨by intro h0; rw [h0] at hl; simp at hl; omega, by omega, List.drop_suffix _ _, ?_⟩
        intro h0
        rw [h0] at hl
        omega
      · rintro ⟨h1, h2, h3, h4⟩
        refine ⟨w.length, ?_, ?_⟩
        · rw [mem_fromOne]; unfold rightEnd
          have := List.length_pos_iff.2 h1
          have h5 := h3.length_le
          have : w.length ≠ t.length := fun h => h4 (h3.eq_of_length h)
          omega
        · simp only [Function.comp, decide_eq_true_iff]
          exact (List.suffix_iff_eq_drop.1 h3).symm
    · intro a ha b hb h1 h2
      simp only [Function.comp, decide_eq_true_iff] at h1 h2
      rw [← hlen a ha, ← hlen b hb, h1, h2]
  have hd : Dict.getD (toks.foldl (countRights s) []) w 0 = rightFreq s.maxRight toks w := by
    rw [e, Dict.getD_foldl_add, sum_map_one, ← hc, List.countP_eq_length_filter]
    simp [Dict.getD]
  refine ⟨hd, ?_, ?_⟩
  · rw [e, Dict.mem_keys_foldl_add, ← hc, Nat.succ_le_iff, List.countP_pos_iff]
    simp
  · rw [e]; exact Dict.WF.foldl_add _ _ _ Dict.wf_nil

private theorem mem_frequent {s : State} {d : Dict Str Nat} {n : Nat} {w : Str} (hw : Dict.WF d) (h1 : Dict.getD d w 0 = n) (h2 : w ∈ Dict.keys d ↔ 1 ≤ n) :
    w ∈ frequent s d ↔ 1 ≤ n ∧ s.minFrequency ≤ n := by
  unfold frequent
  rw [List.mem_map]
  constructor
  · rintro ⟨⟨w', k⟩, hm, rfl⟩
    rw [List.mem_filter, decide_eq_true_iff] at hm
    have hk : w' ∈ Dict.keys d := List.mem_map.2 ⟨_, hm.1, rfl⟩
    have hg := Dict.get?_of_mem hw hm.1
    unfold Dict.getD at h1
    rw [hg] at h1
    simp only [Option.getD_some] at h1
    subst h1
    exact ⟨h2.1 hk, hm.2⟩
  · rintro ⟨h3, h4⟩
    obtain ⟨v, hv⟩ := Option.isSome_iff_exists.1 ((Dict.isSome_get?_iff d w).2 (h2.2 h3))
    unfold Dict.getD at h1
    rw [hv] at h1
    simp only [Option.getD_some] at h1
    subst h1
    exact ⟨(w, v), List.mem_filter.2 ⟨Dict.mem_of_get? hv, by simpa using h4⟩, rfl⟩

/-- the cuts of a token that are counted -/
private def cutsOf (s : State) (wl wr : List Str) (t : Str) : List (Str × Str) :=
  ((fromOne (leftEnd s t)).map (fun i => (t.take i, t.drop i))).filter (fun p => decide (p.1 ∈ wl ∧ p.2 ∈ wr))

private theorem addToken_eq (s : State) (wl wr : List Str) (g : Nested Str × Nested Str) (t : Str) :
    addToken s wl wr g t = ((cutsOf s wl wr t).foldl (fun g x => nadd g x.1 x.2 1) g.1, (cutsOf s wl wr t).foldl (fun g x => nadd g x.2 x.1 1) g.2) := by
  unfold addToken cutsOf
  generalize fromOne (leftEnd s t) = is
  induction is generalizing g with
  | nil => rfl
  | cons i is ih =>
    rw [List.foldl_cons, ih, List.map_cons]
    by_cases h : t.take i ∈ wl ∧ t.drop i ∈ wr
    · rw [if_neg (by rintro (h1 | h1); exacts [h1 h.1, h1 h.2]), List.filter_cons_of_pos (p := fun p : Str × Str => decide (p.1 ∈ wl ∧ p.2 ∈ wr)) (by simpa using h)]
      rfl
    · rw [if_pos (by by_contra h1; rw [not_or, not_not, not_not] at h1; exact h h1), List.filter_cons_of_neg (p := fun p : Str × Str => decide (p.1 ∈ wl ∧ p.2 ∈ wr)) (by simpa using h)]

private theorem tokens_eq (s : State) (wl wr : List Str) (toks : List Str) (g : Nested Str × Nested Str) :
    toks.foldl (addToken s wl wr) g = ((toks.flatMap (cutsOf s wl wr)).foldl (fun g x => nadd g x.1 x.2 1) g.1,
      (toks.flatMap (cutsOf s wl wr)).foldl (fun g x => nadd g x.2 x.1 1) g.2) := by
  induction toks generalizing g with
  | nil => rfl
  | cons t toks ih => rw [List.foldl_cons, ih, addToken_eq, List.flatMap_cons, List.foldl_append, List.foldl_append]

private theorem buildGo_ok {s : State} {wl wr : List Str} {total : Nat} (_ : total ≠ 0) (sents : List Str) : ∀ (i : Nat) (g : Nested Str × Nested Str),
    (s.verbose = true → 40 ≤ total) → buildGo s wl wr total i g sents = .ok ((sents.flatMap splitWs).foldl (addToken s wl wr) g) := by
  induction sents with
  | nil => intro i g _; rfl
  | cons sent sents ih =>
    intro i g h
    have hp : ∀ j, progress s (total / 40) j total = .ok () := by
      intro j
      unfold progress
      cases hv : s.verbose with
      | false => rfl
      | true =>
        have := h hv
        rw [if_neg (by simp), if_neg (by omega), if_neg (by omega)]
    simp only [buildGo]
    rw [hp]
    simp only
    rw [ih _ _ h, List.flatMap_cons, List.foldl_append]

private theorem graphs_spec (s : State) (sents WL WR : List Str) :
    PatternGraphs s sents WL WR ((sents.flatMap splitWs).foldl (addToken s WL (WR ++ [[]])) ([], [])).1
      ((sents.flatMap splitWs).foldl (addToken s WL (WR ++ [[]])) ([], [])).2 := by
  rw [tokens_eq]
  have key : ∀ l r, ((sents.flatMap splitWs).flatMap (cutsOf s WL (WR ++ [[]]))).countP (fun x => decide (x.1 = l ∧ x.2 = r)) =
      if l ∈ WL ∧ (r ∈ WR ∨ r = []) ∧ l ≠ [] ∧ (l.length : Int) ≤ s.maxLeft then (wsTokens sents).countP (fun t => decide (t = l ++ r)) else 0 := by
    intro l r
    by_cases hc : l ∈ WL ∧ (r ∈ WR ∨ r = []) ∧ l ≠ [] ∧ (l.length : Int) ≤ s.maxLeft
    · rw [if_pos hc]
      refine countP_flatMap_one _ _ _ _ (fun t _ => ?_)
      unfold cutsOf
      rw [List.countP_filter, List.countP_map, countP_nodup (nodup_fromOne _)]
      · congr 1
        rw [eq_iff_iff, List.any_eq_true, decide_eq_true_iff]
        constructor
        · rintro ⟨i, hi, h⟩
          simp only [Function.comp, Bool.and_eq_true, decide_eq_true_iff] at h
          rw [← h.1.1, ← h.1.2, List.take_append_drop]
        · rintro rfl
          refine ⟨l.length, ?_, ?_⟩
          · rw [mem_fromOne]; unfold leftEnd
            have := List.length_pos_iff.2 hc.2.2.1
            rw [List.length_append]
            have := hc.2.2.2
            omega
          · simp only [Function.comp, Bool.and_eq_true, decide_eq_true_iff, List.take_left, List.drop_left]
            refine ⟨⟨trivial, trivial⟩, hc.1, ?_⟩
            rw [List.mem_append, List.mem_singleton]; exact hc.2.1
      · intro a ha b hb h1 h2
        simp only [Function.comp, Bool.and_eq_true, decide_eq_true_iff] at h1 h2
        have hl : ∀ i ∈ fromOne (leftEnd s t), (t.take i).length = i := by
          intro i hi
          rw [mem_fromOne] at hi
          unfold leftEnd at hi
          rw [List.length_take]; omega
        rw [← hl a ha, ← hl b hb, h1.1.1, h2.1.1]
    · rw [if_neg hc, List.countP_eq_zero]
      rintro ⟨a, b⟩ hab h
      simp only [decide_eq_true_iff] at h
      obtain ⟨rfl, rfl⟩ := h
      obtain ⟨t, _, ht⟩ := List.mem_flatMap.1 hab
      unfold cutsOf at ht
      rw [List.mem_filter, decide_eq_true_iff] at ht
      obtain ⟨i, hi, e⟩ := List.mem_map.1 ht.1
      rw [mem_fromOne] at hi
      unfold leftEnd at hi
      have ea : t.take i = a := congrArg Prod.fst e
      have hlen : a.length = i := by rw [← ea, List.length_take]; omega
      refine hc ⟨ht.2.1, ?_, ?_, by omega⟩
      · have := ht.2.2; rwa [List.mem_append, List.mem_singleton] at this
      · rintro rfl; simp at hlen; omega
  generalize (sents.flatMap splitWs).flatMap (cutsOf s WL (WR ++ [[]])) = xs at key
  have hget : ∀ (ka kb : Str × Str → Str) a b, get2 (xs.foldl (fun g x => nadd g (ka x) (kb x) 1) []) a b =
      if 1 ≤ xs.countP (fun x => decide (ka x = a ∧ kb x = b)) then some ((xs.countP (fun x => decide (ka x = a ∧ kb x = b)) : Nat) : Int) else none := by
    intro ka kb a b
    have h1 := getD_get2_foldl_nadd xs ka kb (fun _ => 1) [] a b
    have h2 := isSome_get2_foldl_nadd xs ka kb (fun _ => 1) [] a b
    have hs : ∀ ys : List (Str × Str), ((ys.map (fun _ => (1 : Int))).sum) = (ys.length : Int) := by
      intro ys; induction ys with
      | nil => rfl
      | cons y ys ih => rw [List.map_cons, List.sum_cons, ih, List.length_cons]; omega
    rw [hs, ← List.countP_eq_length_filter] at h1
    have h0 : get2 ([] : Nested Str) a b = none := rfl
    rw [h0] at h1 h2
    simp only [Option.getD_none, Option.isSome_none, Bool.false_eq_true, false_or, Int.zero_add] at h1 h2
    by_cases hp : 1 ≤ xs.countP (fun x => decide (ka x = a ∧ kb x = b))
    · rw [if_pos hp]
      rw [Nat.succ_le_iff, List.countP_pos_iff] at hp
      obtain ⟨v, hv⟩ := Option.isSome_iff_exists.1 (h2.2 (by simpa using hp))
      rw [hv] at h1 ⊢
      rw [← h1]; rfl
    · rw [if_neg hp]
      rw [Nat.succ_le_iff, List.countP_pos_iff] at hp
      rw [← Option.not_isSome_iff_eq_none, h2]
      simpa using hp
  refine ⟨WF2.foldl_nadd xs Prod.fst Prod.snd (fun _ => 1) wf2_nil, WF2.foldl_nadd xs Prod.snd Prod.fst (fun _ => 1) wf2_nil, ?_, ?_⟩
  · intro l r n
    rw [hget Prod.fst Prod.snd l r, key l r]
    by_cases hc : l ∈ WL ∧ (r ∈ WR ∨ r = []) ∧ l ≠ [] ∧ (l.length : Int) ≤ s.maxLeft
    · rw [if_pos hc]
      by_cases hp : 1 ≤ (wsTokens sents).countP (fun t => decide (t = l ++ r))
      · rw [if_pos hp]
        simp only [Option.some.injEq]
        constructor
        · rintro rfl; exact ⟨hc.1, hc.2.1, hc.2.2.1, hc.2.2.2, rfl, by omega⟩
        · rintro ⟨_, _, _, _, e, _⟩; exact e.symm
      · rw [if_neg hp]
        constructor
        · intro h; cases h
        · rintro ⟨_, _, _, _, e, h1⟩; omega
    · rw [if_neg hc, if_neg (by omega)]
      constructor
      · intro h; cases h
      · rintro ⟨a, b, c, d, _⟩; exact absurd ⟨a, b, c, d⟩ hc
  · intro l r
    rw [hget Prod.fst Prod.snd l r, hget Prod.snd Prod.fst r l]
    have : (fun x : Str × Str => decide (x.2 = r ∧ x.1 = l)) = (fun x => decide (x.1 = l ∧ x.2 = r)) := by
      funext x; congr 1; rw [eq_iff_iff, and_comm]
    rw [this]

/-! ### the claims -/

/-- C83 (a): unless a progress message divides by zero, training succeeds: the word sets hold the frequent beginnings and proper ends, `''` is added to the right
    one, and the graphs count the tokens -/
theorem C83_trains (s : State) (sents wl wr : List Str) (h : s.verbose = true → ¬ PatternDivides sents (wl = [] ∨ wr = [])) :
    ∃ WL WR lr rl, train s sents wl wr = ({ s with wordsetL := some WL, wordsetR := some (WR ++ [[]]), lrgraph := some lr, rlgraph := some rl }, .ok ()) ∧
      PatternWords s sents wl wr WL WR ∧ PatternGraphs s sents WL WR lr rl := by
  have hv : s.verbose = true → sents ≠ [] → 40 ≤ sents.length ∧ ((wl = [] ∨ wr = []) → ∀ i, sents[i]? = some [] → i % (sents.length / 40) ≠ 0) := by
    intro hv hne
    have hd := h hv
    unfold PatternDivides at hd
    refine ⟨?_, fun hs i hi h0 => hd ⟨hne, .inr ⟨hs, i, hi, h0⟩⟩⟩
    by_contra hlt
    exact hd ⟨hne, .inl (by omega)⟩
  have hb : ∀ WL WR : List Str, buildGo { s with wordsetL := some WL, wordsetR := some (WR ++ [[]]) } WL (WR ++ [[]]) sents.length 0 ([], []) sents =
      .ok ((sents.flatMap splitWs).foldl (addToken s WL (WR ++ [[]])) ([], [])) := by
    intro WL WR
    by_cases hne : sents = []
    · subst hne; rfl
    · have : sents.length ≠ 0 := fun h => hne (List.length_eq_zero_iff.1 h)
      rw [buildGo_ok (s := { s with wordsetL := some WL, wordsetR := some (WR ++ [[]]) }) this sents 0 ([], []) (fun hv' => (hv hv' hne).1)]
      rfl
  by_cases hs : wl = [] ∨ wr = []
  · have hscan := scanGo_ok (s := s) (ckpt := sents.length / 40) sents 0 [] [] (fun hv' hne => ⟨by have := (hv hv' hne).1; omega, fun k hk => by
      rw [Nat.zero_add]; exact (hv hv' hne).2 hs k hk⟩)
    rw [scanTokens_eq] at hscan
    refine ⟨frequent s ((blankTokens sents).foldl (countLefts s) []), frequent s ((blankTokens sents).foldl (countRights s) []), _, _, ?_, ⟨?_, ?_, ?_⟩,
      graphs_spec s sents _ _⟩
    · unfold train scanVocabulary
      rw [if_pos hs, hscan]
      simp only
      rw [hb]
    · intro h1 h2; rcases hs with h | h
      · exact absurd h h1
      · exact absurd h h2
    · intro _ w
      obtain ⟨a, b, c⟩ := leftFreq_eq s (blankTokens sents) w
      exact mem_frequent c a b
    · intro _ w
      obtain ⟨a, b, c⟩ := rightFreq_eq s (blankTokens sents) w
      exact mem_frequent c a b
  · refine ⟨wl, wr, _, _, ?_, ⟨fun _ _ => ⟨rfl, rfl⟩, fun h => absurd h hs, fun h => absurd h hs⟩, graphs_spec s sents _ _⟩
    unfold train
    rw [if_neg hs]
    simp only
    rw [hb]

/-- C83 (b): when it divides by zero the graphs stay as they were -/
theorem C83_raises (s : State) (sents wl wr : List Str) (hv : s.verbose = true) (h : PatternDivides sents (wl = [] ∨ wr = [])) :
    (train s sents wl wr).2 = .error .zeroDivision ∧ (train s sents wl wr).1.lrgraph = s.lrgraph ∧ (train s sents wl wr).1.rlgraph = s.rlgraph := by
  obtain ⟨hne, h⟩ := h
  by_cases hs : wl = [] ∨ wr = []
  · have hscan := scanGo_err hv (ckpt := sents.length / 40) sents 0 [] [] hne (by
      rcases h with h | ⟨_, i, hi, h0⟩
      · left; omega
      · right; exact ⟨i, hi, by rwa [Nat.zero_add]⟩)
    unfold train scanVocabulary
    rw [if_pos hs, hscan]
    exact ⟨rfl, rfl, rfl⟩
  · have hlt : sents.length < 40 := by
      rcases h with h | ⟨h, _⟩
      · exact h
      · exact absurd h hs
    obtain ⟨sent, sents, rfl⟩ := List.exists_cons_of_ne_nil hne
    have h0 : (sent :: sents).length / 40 = 0 := by omega
    unfold train
    rw [if_neg hs]
    simp only [buildGo]
    have hp : ∀ (WL WR : List Str) j, progress { s with wordsetL := some WL, wordsetR := some (WR ++ [[]]) } ((sent :: sents).length / 40) j (sent :: sents).length = .error .zeroDivision := by
      intro WL WR j
      unfold progress
      rw [if_neg (by simp [hv]), if_pos h0]
    rw [hp]
    exact ⟨rfl, rfl, rfl⟩

/-! ### examples -/

/-- two sentences, silenced: 학교 is a left word, 에 a right one -/
def demoPattern : State := { minFrequency := 2, verbose := false }
def demoPatternSents : List Str := ["학교에 학교는".toList, "학교에\t집".toList, "집에 학교에".toList]

/-- 학교 and 에 are frequent, so the cut 학교+에 is counted in all three tokens, the one before the tab included; 는 is not frequent -/
example : (match train demoPattern demoPatternSents with
    | (s, .ok _) => (s.lrgraph.map (fun g => get2 g "학교".toList "에".toList) == some (some 3)) && (s.lrgraph.map (fun g => get2 g "학교".toList "는".toList) == some none)
    | _ => false) = true := by decide +kernel

/-- as constructed, it cannot be trained on two sentences -/
example : (train {} ["학교에 갔다".toList, "학교는".toList]).2 = .error .zeroDivision := (C83_raises _ _ _ _ rfl (by unfold PatternDivides; simp)).1
end Props
