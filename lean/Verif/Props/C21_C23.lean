import Verif.Proofs.EojeolCounter
import Mathlib.Algebra.Order.Field.Basic
/-! C21 counting, C22 save/load, C23 coverage of `EojeolCounter`. -/
namespace Props
open Py EC

/-! ### C21 -/

/-- the eojeols of a corpus: the whitespace-separated words of the preprocessed sentences -/
def eojeolsOf (preprocess : Str → Str) (sents : List Str) : List Str := sents.flatMap (fun s => splitWs (preprocess s))

/-- no filtering while `n` sentences are counted: `filtering_checkpoint` is not positive, or `min_count` at most 1, or there are at most
    `filtering_checkpoint` sentences -/
def NoCheckpoints (p : Params) (n : Nat) : Prop := p.checkpoint ≤ 0 ∨ p.minCount ≤ 1 ∨ (n : Int) ≤ p.checkpoint

private theorem construct_some (p : Params) (sents : List Str) (h : sents ≠ []) :
    construct p (some sents) = .ok ⟨filterMin p.minCount (sents.zipIdx.foldl (countSent p) []),
      Dict.sumI (filterMin p.minCount (sents.zipIdx.foldl (countSent p) [])), 0⟩ := by
  have : ¬ sents.length ≤ 0 := by have := List.length_pos_iff.2 h; omega
  simp only [construct, counting, checkCorpus, if_neg this]; rfl

private theorem inv0 : Dict.WF ([] : Dict Str Int) ∧ ∀ kv ∈ ([] : Dict Str Int), 1 ≤ kv.2 ∧ kv.1 ≠ [] := by simp

private theorem noCheckpoint_countP {p : Params} {n : Nat} (h : NoCheckpoints p n) : (List.range' 0 n).countP (atCheckpoint p) = 0 := by
  rw [List.countP_eq_zero]
  intro i hi
  rw [List.mem_range'_1] at hi
  simp only [atCheckpoint, Bool.and_eq_true, decide_eq_true_eq, NoCheckpoints] at *
  rintro ⟨⟨⟨h1, h2⟩, h3⟩, h4⟩
  have : (i : Int) < p.checkpoint := by omega
  rw [Int.emod_eq_of_lt (by omega) this] at h4
  omega

/-- C21: without checkpoint filtering the counter holds exactly the eojeols of admissible length and frequency, each
    once and with its exact number of occurrences; asking for any other eojeol gives 0. -/
theorem C21_exact (p : Params) (sents : List Str) (hne : sents ≠ []) (hno : NoCheckpoints p sents.length) :
    ∃ s, construct p (some sents) = .ok s ∧ s.counter.WF ∧
      (∀ e, getitem s e = if (e.length : Int) ≤ p.maxLength ∧ p.minCount ≤ ((eojeolsOf p.preprocess sents).count e : Int)
        then ((eojeolsOf p.preprocess sents).count e : Int) else 0) ∧
      (∀ e c, (e, c) ∈ s.counter ↔ e ∈ eojeolsOf p.preprocess sents ∧ (e.length : Int) ≤ p.maxLength ∧
        c = (eojeolsOf p.preprocess sents).count e ∧ p.minCount ≤ c) := by
  refine ⟨_, construct_some p sents hne, ?_⟩
  have hinv := foldl_countSent_inv p sents.zipIdx [] inv0
  have hfi := filterMin_inv (m := p.minCount) hinv
  have hget : ∀ e, Dict.getD (filterMin p.minCount (sents.zipIdx.foldl (countSent p) [])) e 0 =
      if (e.length : Int) ≤ p.maxLength ∧ p.minCount ≤ ((eojeolsOf p.preprocess sents).count e : Int)
        then ((eojeolsOf p.preprocess sents).count e : Int) else 0 := by
    intro e
    rw [getD_filterMin hinv.1]
    by_cases he : (e.length : Int) ≤ p.maxLength
    · obtain ⟨h1, h2⟩ := foldl_countSent_bounds p sents 0 [] inv0 e he
      rw [noCheckpoint_countP hno] at h2
      have : Dict.getD (sents.zipIdx.foldl (countSent p) []) e 0 = ((eojeolsOf p.preprocess sents).count e : Int) := by
        have e0 : Dict.getD ([] : Dict Str Int) e 0 = 0 := rfl
        rw [e0] at h1 h2
        simp only [Nat.cast_zero, Int.mul_zero, Int.add_zero, Int.zero_add] at h1 h2
        unfold eojeolsOf; exact Int.le_antisymm h1 h2
      rw [this]; simp only [he, true_and]
    · rw [foldl_countSent_long p sents 0 [] inv0 e he rfl, if_neg (fun h : _ ∧ _ => he h.1)]; simp
  refine ⟨hfi.1, hget, ?_⟩
  intro e c
  constructor
  · intro hm
    have hc := (hfi.2 _ hm).1
    have hmin : p.minCount ≤ c := by simpa [filterMin] using (List.mem_filter.1 hm).2
    have hg := hget e
    rw [Dict.getD, Dict.get?_of_mem hfi.1 hm] at hg
    simp only [Option.getD_some] at hg
    by_cases hcond : (e.length : Int) ≤ p.maxLength ∧ p.minCount ≤ ((eojeolsOf p.preprocess sents).count e : Int)
    · rw [if_pos hcond] at hg
      refine ⟨?_, hcond.1, hg, hmin⟩
      apply List.count_pos_iff.1
      have : (1 : Int) ≤ c := hc
      omega
    · rw [if_neg hcond] at hg
      have : (1 : Int) ≤ c := hc
      omega
  · rintro ⟨hm, hl, rfl, hmin⟩
    have hg := hget e
    rw [if_pos ⟨hl, hmin⟩] at hg
    have hpos := List.count_pos_iff.2 hm
    apply Dict.mem_of_get?
    cases hgg : Dict.get? (filterMin p.minCount (sents.zipIdx.foldl (countSent p) [])) e with
    | none => rw [Dict.getD, hgg] at hg; simp only [Option.getD_none] at hg; omega
    | some v => rw [Dict.getD, hgg] at hg; simp only [Option.getD_some] at hg; rw [hg]

/-- C21: whatever the parameters, a count never exceeds the true number of occurrences, every stored count is at least
    `min_count` (and positive), and stored eojeols are at most `max_length` long and occur in the corpus. -/
theorem C21_bounds (p : Params) (sents : List Str) (hne : sents ≠ []) :
    ∃ s, construct p (some sents) = .ok s ∧ s.counter.WF ∧
      (∀ e, 0 ≤ getitem s e ∧ getitem s e ≤ ((eojeolsOf p.preprocess sents).count e : Int)) ∧
      (∀ e c, (e, c) ∈ s.counter → p.minCount ≤ c ∧ 1 ≤ c ∧ (e.length : Int) ≤ p.maxLength ∧ e ∈ eojeolsOf p.preprocess sents) := by
  refine ⟨_, construct_some p sents hne, ?_⟩
  have hinv := foldl_countSent_inv p sents.zipIdx [] inv0
  have hfi := filterMin_inv (m := p.minCount) hinv
  have hle : ∀ e, Dict.getD (filterMin p.minCount (sents.zipIdx.foldl (countSent p) [])) e 0 ≤
      if (e.length : Int) ≤ p.maxLength then ((eojeolsOf p.preprocess sents).count e : Int) else 0 := by
    intro e
    rw [getD_filterMin hinv.1]
    have h0 := getD_nonneg hinv.2 e
    by_cases he : (e.length : Int) ≤ p.maxLength
    · obtain ⟨h1, _⟩ := foldl_countSent_bounds p sents 0 [] inv0 e he
      have e0 : Dict.getD ([] : Dict Str Int) e 0 = 0 := rfl
      rw [e0, Int.zero_add] at h1
      rw [if_pos he]
      split
      · exact h1
      · omega
    · rw [foldl_countSent_long p sents 0 [] inv0 e he rfl, if_neg he]; split <;> omega
  refine ⟨hfi.1, fun e => ⟨getD_nonneg hfi.2 e, ?_⟩, ?_⟩
  · have := hle e
    show Dict.getD (filterMin p.minCount (sents.zipIdx.foldl (countSent p) [])) e 0 ≤ _
    split at this <;> omega
  · intro e c hm
    have hc : 1 ≤ c := (hfi.2 _ hm).1
    have hmin : p.minCount ≤ c := by simpa [filterMin] using (List.mem_filter.1 hm).2
    have hg := hle e
    rw [Dict.getD, Dict.get?_of_mem hfi.1 hm] at hg
    simp only [Option.getD_some] at hg
    split at hg
    · rename_i hl
      exact ⟨hmin, hc, hl, List.count_pos_iff.1 (by omega)⟩
    · omega

/-- C21: what checkpoint filtering can lose is bounded: an eojeol of admissible length occurring `n` times is counted
    at least `n - (min_count - 1) * (number of checkpoints passed + 1)` times, where the checkpoints passed are the
    positive multiples of `filtering_checkpoint` below the number of sentences. -/
theorem C21_loss (p : Params) (sents : List Str) (hne : sents ≠ []) (hm : 1 < p.minCount) (cp : Nat) (hcp : 0 < cp)
    (hp : p.checkpoint = cp) :
    ∃ s, construct p (some sents) = .ok s ∧ ∀ e : Str, (e.length : Int) ≤ p.maxLength →
      ((eojeolsOf p.preprocess sents).count e : Int) - (p.minCount - 1) * (((sents.length - 1) / cp + 1 : Nat) : Int) ≤ getitem s e := by
  refine ⟨_, construct_some p sents hne, ?_⟩
  intro e he
  have hinv := foldl_countSent_inv p sents.zipIdx [] inv0
  obtain ⟨_, h2⟩ := foldl_countSent_bounds p sents 0 [] inv0 e he
  rw [countP_checkpoints p _ hm cp hcp hp] at h2
  have e0 : Dict.getD ([] : Dict Str Int) e 0 = 0 := rfl
  rw [e0, Int.zero_add] at h2
  show _ ≤ Dict.getD (filterMin p.minCount (sents.zipIdx.foldl (countSent p) [])) e 0
  rw [getD_filterMin hinv.1]
  have h3 : (eojeolsOf p.preprocess sents).count e = occ p sents e := rfl
  rw [h3]
  generalize (sents.length - 1) / cp = N at *
  have hexp : (p.minCount - 1) * ((N + 1 : Nat) : Int) = (p.minCount - 1) * (N : Int) + (p.minCount - 1) := by push_cast; ring
  rw [hexp]
  have h0 := getD_nonneg hinv.2 e
  split
  · omega
  · omega

/-- C21: without checkpoint filtering the order of the sentences does not matter. -/
theorem C21_order (p : Params) (sents sents' : List Str) (hno : NoCheckpoints p sents.length) (hp : sents.Perm sents') (s s' : State)
    (hs : construct p (some sents) = .ok s) (hs' : construct p (some sents') = .ok s') :
    (∀ e, getitem s e = getitem s' e) ∧ s.counter.Perm s'.counter ∧ s.countSum = s'.countSum := by
  have hne : sents ≠ [] := by rintro rfl; simp [construct, counting, checkCorpus, bind, Except.bind] at hs
  have hne' : sents' ≠ [] := by rintro rfl; simp [construct, counting, checkCorpus, bind, Except.bind] at hs'
  obtain ⟨t, ht, hwf, hg, hm⟩ := C21_exact p sents hne hno
  obtain ⟨t', ht', hwf', hg', hm'⟩ := C21_exact p sents' hne' (hp.length_eq ▸ hno)
  rw [hs] at ht; rw [hs'] at ht'; cases ht; cases ht'
  have hperm : (eojeolsOf p.preprocess sents).Perm (eojeolsOf p.preprocess sents') := by
    unfold eojeolsOf; exact hp.flatMap_right _
  have hcount : ∀ e, (eojeolsOf p.preprocess sents).count e = (eojeolsOf p.preprocess sents').count e := fun e => hperm.count_eq e
  have hp2 : s.counter.Perm s'.counter := by
    apply Dict.perm_of_get? hwf hwf'
    intro k
    apply Option.ext
    intro v
    rw [← Dict.mem_iff_get? hwf, ← Dict.mem_iff_get? hwf', hm, hm', hcount k, hperm.mem_iff]
  refine ⟨fun e => by rw [hg, hg', hcount e], hp2, ?_⟩
  have e1 := construct_some p sents hne
  have e2 := construct_some p sents' hne'
  rw [hs] at e1; rw [hs'] at e2
  cases e1; cases e2
  exact Dict.sumI_perm hp2

/-- C21: an empty corpus is refused. -/
theorem C21_empty (p : Params) : construct p (some []) = .error .valueError := rfl

example : ∃ s, construct { minCount := 2 } (some ["이것은 예시 예시".toList, "예시 이것은 하나".toList]) = .ok s ∧
    s.counter = [("이것은".toList, 2), ("예시".toList, 3)] := by
  refine ⟨_, rfl, ?_⟩; decide +kernel
/-- a checkpoint really loses counts: `a` occurs twice but each block sees it once -/
example : ∃ s, construct { minCount := 2, checkpoint := 1 } (some ["a b b".toList, "a b".toList]) = .ok s ∧
    s.counter = [("b".toList, 3)] := by
  refine ⟨_, rfl, ?_⟩; decide +kernel

/-! ### C22 -/

/-- a word that can be written in a space-separated line: non-empty, no whitespace -/
def Writable (w : Str) : Prop := w ≠ [] ∧ ∀ c ∈ w, isSpace c = false

private theorem splitWs_line (ws : List Str) (h : Words ws) : splitWs (join [' '] ws ++ ['\n']) = ws := by
  have key : ∀ (s cur : Str), splitGo cur (s ++ ['\n']) = splitGo cur s := by
    intro s
    induction s with
    | nil => intro cur; simp only [List.nil_append, splitGo]; have : isSpace '\n' = true := by decide
             simp [this]
    | cons c s ih => intro cur; simp only [List.cons_append, splitGo]; split <;> (try split) <;> simp [ih]
  unfold splitWs
  rw [key]
  exact splitWs_join ws h

theorem nospace_nl {w : Str} (h : ∀ c ∈ w, isSpace c = false) : '\n' ∉ w ∧ '\r' ∉ w := by
  refine ⟨fun hm => ?_, fun hm => ?_⟩ <;> have := h _ hm <;> revert this <;> decide

private theorem loadGo_saved (xs : List (Str × Int)) (h : ∀ x ∈ xs, Writable x.1) (d : Dict Str Int) :
    loadGo d (xs.map (fun x => saveLine x ++ ['\n'])) = (xs.foldl (fun d e => Dict.set d e.1 e.2) d, .ok ()) := by
  induction xs generalizing d with
  | nil => rfl
  | cons x xs ih =>
    have hx := h x (by simp)
    have hs : splitWs (saveLine x ++ ['\n']) = [x.1, intStr x.2] := by
      have := splitWs_line [x.1, intStr x.2] (by
        intro w hw; simp at hw
        rcases hw with rfl | rfl
        · exact hx
        · exact intStr_word _)
      simpa [join, saveLine] using this
    rw [List.map_cons, loadGo]
    simp only [loadLine, hs, parseInt_intStr, List.foldl_cons]
    exact ih (fun y hy => h y (by simp [hy])) _

/-- C22: saving a counter with writable keys and loading the file into any counter object succeeds and gives the same
    entries, the same answer for every eojeol, the same total, and coverage 0. -/
theorem C22_roundtrip (s t : State) (hwf : s.counter.WF) (hw : ∀ e ∈ Dict.keys s.counter, Writable e) :
    ∃ u, load t (save s) = (u, .ok ()) ∧ (∀ e, getitem u e = getitem s e) ∧ u.counter.WF ∧ u.counter.Perm s.counter ∧
      u.countSum = Dict.sumI s.counter ∧ len u = len s ∧ u.coverage = 0 := by
  have hw' : ∀ x ∈ sorted saveLe s.counter, Writable x.1 := by
    intro x hx; exact hw _ (List.mem_map.2 ⟨x, mem_sorted.1 hx, rfl⟩)
  have hlines : fileLines (save s) = (sorted saveLe s.counter).map (fun x => saveLine x ++ ['\n']) := by
    have := fileLines_written ((sorted saveLe s.counter).map saveLine) (by
      intro l hl
      obtain ⟨x, hx, rfl⟩ := List.mem_map.1 hl
      have h1 := nospace_nl (hw' x hx).2
      have h2 := nospace_nl (intStr_word x.2).2
      have a1 : '\n' ≠ ' ' := by decide
      have a2 : '\r' ≠ ' ' := by decide
      simp [saveLine, h1, h2, a1, a2])
    rw [List.flatMap_map, List.map_map] at this
    exact this
  have hg := loadGo_saved _ hw' []
  have hswf : Dict.WF (sorted saveLe s.counter) := by
    unfold Dict.WF Dict.keys at *
    exact (((sorted_perm saveLe s.counter).map _).nodup_iff).2 hwf
  have hload : load t (save s) = ({ counter := Dict.ofList (sorted saveLe s.counter), countSum := Dict.sumI (Dict.ofList (sorted saveLe s.counter)), coverage := 0 }, .ok ()) := by
    unfold load
    rw [hlines, hg]
    rfl
  have hperm0 : (sorted saveLe s.counter).Perm s.counter := sorted_perm _ _
  have hget : ∀ k, Dict.get? (Dict.ofList (sorted saveLe s.counter)) k = Dict.get? s.counter k := by
    intro k
    rw [Dict.get?_map_ofList _ hswf]
    apply Option.ext; intro v
    rw [← Dict.mem_iff_get? hswf, ← Dict.mem_iff_get? hwf]; exact mem_sorted
  have hperm := Dict.perm_of_get? (Dict.wf_ofList _) hwf hget
  refine ⟨_, hload, ?_, Dict.wf_ofList _, hperm, Dict.sumI_perm hperm, ?_, rfl⟩
  · intro e; simp only [getitem, Dict.getD, hget]
  · exact hperm.length_eq

/-- C22: the lines of the file are one per entry, in descending order of count and, for equal counts, in string order. -/
theorem C22_file (s : State) :
    ∃ xs : List (Str × Int), save s = xs.flatMap (fun x => x.1 ++ [' '] ++ intStr x.2 ++ ['\n']) ∧ xs.Perm s.counter ∧
      xs.Pairwise (fun x y => x.2 > y.2 ∨ (x.2 = y.2 ∧ strLe x.1 y.1 = true)) := by
  refine ⟨sorted saveLe s.counter, ?_, sorted_perm _ _, ?_⟩
  · unfold save; congr 1; funext x; simp [saveLine]
  · refine (pairwise_sorted saveLe_totalPre s.counter).imp ?_
    rintro ⟨a, n⟩ ⟨b, m⟩ h
    simp only [saveLe] at h
    split at h
    · exact Or.inl (by assumption)
    · split at h
      · cases h
      · exact Or.inr ⟨by omega, h⟩

/-- C22: counting always yields writable keys, so every counter built from a corpus round-trips. -/
theorem C22_counted (p : Params) (sents : List Str) (s t : State) (hs : construct p (some sents) = .ok s) :
    ∃ u, load t (save s) = (u, .ok ()) ∧ (∀ e, getitem u e = getitem s e) ∧ u.countSum = s.countSum := by
  have hne : sents ≠ [] := by rintro rfl; simp [construct, counting, checkCorpus, bind, Except.bind] at hs
  obtain ⟨s', hs', hwf, _, hm⟩ := C21_bounds p sents hne
  rw [hs] at hs'; cases hs'
  obtain ⟨u, h1, h2, _, _, h3, _⟩ := C22_roundtrip s t hwf (by
    intro e he
    obtain ⟨⟨k, c⟩, hkc, rfl⟩ := List.mem_map.1 he
    have := (hm k c hkc).2.2.2
    obtain ⟨x, _, hx⟩ := List.mem_flatMap.1 this
    exact ⟨splitWs_nonempty hx, splitWs_nospace hx⟩)
  refine ⟨u, h1, h2, ?_⟩
  rw [h3]
  have e1 := construct_some p sents hne
  rw [hs] at e1; cases e1; rfl

example : ∃ u, load {} (save { counter := [("가".toList, 2), ("나다".toList, 10), ("가나".toList, 2)], countSum := 14 }) = (u, .ok ()) ∧
    save { counter := [("가".toList, 2), ("나다".toList, 10), ("가나".toList, 2)], countSum := 14 } = "나다 10\n가 2\n가나 2\n".toList ∧
    u.counter = [("나다".toList, 10), ("가".toList, 2), ("가나".toList, 2)] ∧ u.countSum = 14 := by
  refine ⟨_, rfl, ?_, ?_, ?_⟩ <;> decide +kernel

/-! ### C23 -/

/-- run a sequence of `remove_covered_eojeols` calls; each call's outcome is collected -/
def removeAll (s : State) : List (Str → Bool) → State × List (PyM Unit)
  | [] => (s, [])
  | q :: qs => let (s', r) := removeCovered s q; let (s'', rs) := removeAll s' qs; (s'', r :: rs)

/-- a counter as it stands right after construction or loading: counts positive, no repeated key, total correct -/
structure Fresh (s : State) : Prop where
  wf : s.counter.WF
  pos : ∀ kv ∈ s.counter, 1 ≤ kv.2
  sum : s.countSum = Dict.sumI s.counter
  cov : s.coverage = 0

private structure Cov (o s : State) : Prop where
  wf : s.counter.WF
  sub : s.counter.Sublist o.counter
  sum : s.countSum = o.countSum
  cov : s.coverage = 1 - (Dict.sumI s.counter : Rat) / (o.countSum : Rat)

private theorem step (o s : State) (hf : Fresh o) (hne : o.counter ≠ []) (h : Cov o s) (q : Str → Bool) :
    ∃ s', removeCovered s q = (s', .ok ()) ∧ Cov o s' ∧ s.coverage ≤ s'.coverage ∧ 0 ≤ s'.coverage ∧ s'.coverage ≤ 1 ∧
      s'.counter = s.counter.filter (fun kv => !q kv.1) := by
  have hpos : 0 < o.countSum := by
    rw [hf.sum]
    obtain ⟨a, l, hl⟩ := List.exists_cons_of_ne_nil hne
    have h1 := hf.pos
    rw [hl] at h1 ⊢
    have := sumI_nonneg (d := l) (fun kv hm => by have := h1 kv (by simp [hm]); omega)
    have := h1 a (by simp)
    unfold Dict.sumI Dict.values at *
    simp; omega
  have hspos : ∀ kv ∈ s.counter, 0 ≤ kv.2 := fun kv hm => by have := hf.pos kv (h.sub.subset hm); omega
  have hle := sumI_filter_le (d := s.counter) (fun kv => !q kv.1) hspos
  have hnn := sumI_nonneg (d := s.counter.filter (fun kv => !q kv.1)) (fun kv hm => hspos kv (List.mem_filter.1 hm).1)
  have hposQ : (0 : Rat) < (o.countSum : Rat) := by exact_mod_cast hpos
  have hle2 : Dict.sumI s.counter ≤ o.countSum := by
    rw [hf.sum]
    clear hle hnn
    have key : ∀ {a b : List (Str × Int)}, a.Sublist b → (∀ kv ∈ b, 1 ≤ kv.2) → Dict.sumI a ≤ Dict.sumI b := by
      intro a b hab
      unfold Dict.sumI Dict.values
      induction hab with
      | slnil => intro _; simp
      | cons a _ ih => intro hp; have := ih (fun kv hm => hp kv (by simp [hm])); have := hp a (by simp); simp at *; omega
      | cons_cons a _ ih => intro hp; have := ih (fun kv hm => hp kv (by simp [hm])); simp at *; omega
    exact key h.sub hf.pos
  set n := Dict.sumI (s.counter.filter (fun kv => !q kv.1)) with hn
  have hleQ : (n : Rat) ≤ (Dict.sumI s.counter : Rat) := by exact_mod_cast hle
  have hnnQ : (0 : Rat) ≤ (n : Rat) := by exact_mod_cast hnn
  have hle2Q : (Dict.sumI s.counter : Rat) ≤ (o.countSum : Rat) := by exact_mod_cast hle2
  have hd1 : (n : Rat) / (o.countSum : Rat) ≤ (Dict.sumI s.counter : Rat) / (o.countSum : Rat) := div_le_div_of_nonneg_right hleQ hposQ.le
  have hd2 : (Dict.sumI s.counter : Rat) / (o.countSum : Rat) ≤ 1 := (div_le_one hposQ).2 hle2Q
  have hd3 : 0 ≤ (n : Rat) / (o.countSum : Rat) := div_nonneg hnnQ hposQ.le
  have hv : 0 ≤ 1 - (n : Rat) / (o.countSum : Rat) ∧ 1 - (n : Rat) / (o.countSum : Rat) ≤ 1 := ⟨by linarith, by linarith⟩
  refine ⟨{ counter := s.counter.filter (fun kv => !q kv.1), countSum := s.countSum, coverage := 1 - (n : Rat) / (o.countSum : Rat) }, ?_, ?_, ?_, hv.1, hv.2, rfl⟩
  · unfold removeCovered
    dsimp only
    rw [if_neg (by rw [h.sum]; omega)]
    simp only [numUncovered, setCoverage, h.sum]
    rw [← hn, if_neg (by simpa using hv)]
  · exact ⟨h.wf.filter _, List.filter_sublist.trans h.sub, h.sum, rfl⟩
  · rw [h.cov]; show _ ≤ 1 - (n : Rat) / (o.countSum : Rat); linarith

private theorem fresh_cov (o : State) (hf : Fresh o) (hne : o.counter ≠ []) : Cov o o := by
  refine ⟨hf.wf, .refl _, rfl, ?_⟩
  have hpos : o.countSum ≠ 0 := by
    rw [hf.sum]
    obtain ⟨a, l, hl⟩ := List.exists_cons_of_ne_nil hne
    have h1 := hf.pos
    rw [hl] at h1 ⊢
    have := sumI_nonneg (d := l) (fun kv hm => by have := h1 kv (by simp [hm]); omega)
    have := h1 a (by simp)
    unfold Dict.sumI Dict.values at *
    simp; omega
  have : (o.countSum : Rat) ≠ 0 := by exact_mod_cast hpos
  rw [hf.cov, ← hf.sum, div_self this]; simp

/-- C23: after any sequence of `remove_covered_eojeols` calls on a non-empty fresh counter: no call raised; coverage is
    one minus the fraction of the original total that is left, and lies in [0,1]; eojeols selected by some call read 0,
    all others keep their count; one further call raises nothing and does not lower the coverage. -/
theorem C23_coverage (o : State) (hf : Fresh o) (hne : o.counter ≠ []) (qs : List (Str → Bool)) :
    (∀ r ∈ (removeAll o qs).2, r = .ok ()) ∧
    (removeAll o qs).1.coverage = 1 - (numUncovered (removeAll o qs).1 : Rat) / (numUncovered o : Rat) ∧
    0 ≤ (removeAll o qs).1.coverage ∧ (removeAll o qs).1.coverage ≤ 1 ∧
    (∀ e, getitem (removeAll o qs).1 e = if ∃ q ∈ qs, q e = true then 0 else getitem o e) ∧
    (∀ q, (removeCovered (removeAll o qs).1 q).2 = .ok () ∧
      (removeAll o qs).1.coverage ≤ (removeCovered (removeAll o qs).1 q).1.coverage) := by
  have main : ∀ (qs : List (Str → Bool)) (s : State), Cov o s → 0 ≤ s.coverage → s.coverage ≤ 1 →
      (∀ r ∈ (removeAll s qs).2, r = .ok ()) ∧ Cov o (removeAll s qs).1 ∧ 0 ≤ (removeAll s qs).1.coverage ∧
      (removeAll s qs).1.coverage ≤ 1 ∧
      (∀ e, getitem (removeAll s qs).1 e = if ∃ q ∈ qs, q e = true then 0 else getitem s e) := by
    intro qs
    induction qs with
    | nil => intro s h h0 h1; exact ⟨by simp [removeAll], h, h0, h1, by simp [removeAll]⟩
    | cons q qs ih =>
      intro s h h0 h1
      obtain ⟨s', he, hc, hmono, hc0, hc1, hcnt⟩ := step o s hf hne h q
      obtain ⟨i1, i2, i3, i4, i5⟩ := ih s' hc hc0 hc1
      simp only [removeAll, he]
      refine ⟨?_, i2, i3, i4, ?_⟩
      · intro r hr
        rcases List.mem_cons.1 hr with rfl | hr
        · rfl
        · exact i1 r hr
      · intro e
        rw [i5]
        have hge : getitem s' e = if q e = true then 0 else getitem s e := by
          unfold getitem Dict.getD
          rw [hcnt, Dict.get?_filter h.wf]
          cases Dict.get? s.counter e with
          | none => simp
          | some v => cases hq : q e <;> simp [Option.filter, hq]
        rw [hge]
        by_cases hq : q e = true
        · simp [hq]
        · simp [hq]
  have h0 := fresh_cov o hf hne
  obtain ⟨m1, m2, m3, m4, m5⟩ := main qs o h0 (by rw [hf.cov]) (by rw [hf.cov]; norm_num)
  refine ⟨m1, ?_, m3, m4, m5, ?_⟩
  · rw [m2.cov, numUncovered, numUncovered, hf.sum]
  · intro q
    obtain ⟨s', he, _, hmono, _⟩ := step o _ hf hne m2 q
    rw [he]; exact ⟨rfl, hmono⟩

/-- C23: on an empty counter the call raises ZeroDivisionError. -/
theorem C23_empty (s : State) (h : s.countSum = 0) (q : Str → Bool) : (removeCovered s q).2 = .error .zeroDivision := by
  unfold removeCovered; dsimp only; rw [if_pos h]

/-- C23: counters built from a corpus are fresh. -/
theorem C23_fresh (p : Params) (sents : List Str) (s : State) (hs : construct p (some sents) = .ok s) : Fresh s := by
  have hne : sents ≠ [] := by rintro rfl; simp [construct, counting, checkCorpus, bind, Except.bind] at hs
  obtain ⟨s', hs', hwf, _, hm⟩ := C21_bounds p sents hne
  have e1 := construct_some p sents hne
  rw [hs] at hs' e1; cases hs'
  refine ⟨hwf, fun kv h => (hm kv.1 kv.2 h).2.1, ?_, ?_⟩ <;> (cases e1; rfl)

example : ∃ s, construct {} (some ["a b b c".toList]) = .ok s ∧
    (removeAll s [fun e => e == "b".toList, fun e => e == "c".toList]).1.coverage = 3 / 4 ∧
    (removeAll s [fun e => e == "b".toList, fun e => e == "c".toList]).1.counter = [("a".toList, 1)] := by
  refine ⟨_, rfl, ?_, ?_⟩ <;> decide +kernel

end Props
