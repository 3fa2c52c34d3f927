import Verif.Model.Bigram
import Verif.Props.C30Pruned
import Mathlib.Tactic.Linarith
/-! C33: Bigram counts. -/
namespace Props
open Py BG

/-- how often `b` occurs adjacently in a tokenised sentence: the positions `i` with `words[i] = b.1`, `words[i+1] = b.2` -/
def adjacent (b : Str × Str) (words : List Str) : Nat :=
  (List.range words.length).countP (fun i => decide (words[i]? = some b.1 ∧ words[i + 1]? = some b.2))

/-- ... in the whole corpus -/
def bigramCount (p : BG.Params) (sents : List Str) (b : Str × Str) : Nat := (sents.map (fun s => adjacent b (p.tokenizer s))).sum

private theorem adjacent_eq (b : Str × Str) (words : List Str) : (toBigram words).countP (fun x => decide (x = b)) = adjacent b words := by
  unfold toBigram adjacent
  induction words with
  | nil => rfl
  | cons a ws ih =>
    rw [List.length_cons, List.range_succ_eq_map, List.countP_cons, List.countP_map]
    cases ws with
    | nil => simp
    | cons c ws =>
      simp only [List.drop_succ_cons, List.drop_zero] at ih ⊢
      rw [List.zip_cons_cons, List.countP_cons, ih]
      congr 1
      · obtain ⟨b1, b2⟩ := b
        simp [Prod.ext_iff]

private theorem sentence_nofilter (p : BG.Params) (d : Dict (Str × Str) Nat) (si : Str × Nat)
    (h : ¬ (p.checkpoint > 0 ∧ (si.2 : Int) % p.checkpoint = 0) ∨ d = []) :
    sentence p d si = (toBigram (p.tokenizer si.1)).foldl (fun d b => Dict.add d b 1) d := by
  unfold sentence
  dsimp only
  have h0 : (if p.checkpoint > 0 ∧ (si.2 : Int) % p.checkpoint = 0 then cut p.minFrequency d else d) = d := by
    rcases h with h | h
    · rw [if_neg h]
    · subst h; split <;> rfl
  rw [h0]
  split
  · rename_i hl
    have : toBigram (p.tokenizer si.1) = [] := by
      unfold toBigram
      match hw : p.tokenizer si.1 with
      | [] => rfl
      | [a] => rfl
      | a :: b :: l => rw [hw] at hl; simp at hl
    rw [this]; rfl
  · rfl

private theorem fold_nofilter (p : BG.Params) (sents : List (Str × Nat)) (d : Dict (Str × Str) Nat)
    (h : ∀ si ∈ sents, ¬ (p.checkpoint > 0 ∧ (si.2 : Int) % p.checkpoint = 0)) :
    sents.foldl (sentence p) d = (sents.flatMap (fun si => toBigram (p.tokenizer si.1))).foldl (fun d b => Dict.add d b 1) d := by
  induction sents generalizing d with
  | nil => rfl
  | cons x xs ih =>
    rw [List.foldl_cons, List.flatMap_cons, List.foldl_append, sentence_nofilter p d x (Or.inl (h x (by simp))), ih]
    intro si hsi; exact h si (by simp [hsi])

theorem bg_count_all (p : BG.Params) (sents : List Str) (k : Nat) (b : Str × Str) :
    ((sents.zipIdx k).flatMap (fun si => toBigram (p.tokenizer si.1))).countP (fun x => decide (x = b)) = bigramCount p sents b := by
  induction sents generalizing k with
  | nil => rfl
  | cons s ss ih =>
    have ih' := ih (k + 1)
    simp only [bigramCount, List.map_cons, List.sum_cons, List.zipIdx_cons, List.flatMap_cons, List.countP_append, adjacent_eq] at ih' ⊢
    rw [ih']

theorem bg_fold_eq (p : BG.Params) (sents : List Str) (h : p.checkpoint ≤ 0 ∨ (sents.length : Int) ≤ p.checkpoint) :
    sents.zipIdx.foldl (sentence p) [] = (sents.zipIdx.flatMap (fun si => toBigram (p.tokenizer si.1))).foldl (fun d b => Dict.add d b 1) [] := by
  cases sents with
  | nil => rfl
  | cons s ss =>
    rw [List.zipIdx_cons, List.foldl_cons, List.flatMap_cons, List.foldl_append, sentence_nofilter p [] _ (Or.inr rfl)]
    apply fold_nofilter
    rintro ⟨x, i⟩ hm ⟨h1, h2⟩
    have hi := List.mem_zipIdx hm
    rcases h with h | h
    · omega
    · have : (i : Int) < p.checkpoint := by simp at h; omega
      rw [Int.emod_eq_of_lt (by omega) this] at h2
      omega

private theorem get?_cut {d : Dict (Str × Str) Nat} (wf : d.WF) (m : Int) (b : Str × Str) :
    Dict.get? (cut m d) b = (Dict.get? d b).filter (fun n : Nat => decide ((n : Int) ≥ m)) := Dict.get?_filter wf _ _

private theorem wf_foldl_inc (xs : List (Str × Str)) {d : Dict (Str × Str) Nat} (h : d.WF) : (xs.foldl (fun d x => Dict.add d x 1) d).WF :=
  Dict.WF.foldl_add xs id (fun _ => 1) h

private theorem wf_sentence (p : BG.Params) {d : Dict (Str × Str) Nat} (h : d.WF) (si : Str × Nat) : (sentence p d si).WF := by
  unfold sentence; dsimp only
  have : Dict.WF (if p.checkpoint > 0 ∧ (si.2 : Int) % p.checkpoint = 0 then cut p.minFrequency d else d) := by
    split
    · exact h.filter _
    · exact h
  split
  · exact this
  · exact wf_foldl_inc _ this

theorem bg_wf_fold (p : BG.Params) (xs : List (Str × Nat)) {d : Dict (Str × Str) Nat} (h : d.WF) : (xs.foldl (sentence p) d).WF := by
  induction xs generalizing d with
  | nil => exact h
  | cons x xs ih => exact ih (wf_sentence p h x)

/-- the trained counter -/
private theorem counter_eq (p : BG.Params) (sents : List Str) : (train p sents).1.counter = some (cut p.minFrequency (sents.zipIdx.foldl (sentence p) [])) := rfl

private theorem wf_counter (p : BG.Params) (sents : List Str) : (cut p.minFrequency (sents.zipIdx.foldl (sentence p) [])).WF :=
  (bg_wf_fold p _ Dict.wf_nil).filter _

/-- what training with filtering off (checkpoint ≤ 0, or at least as large as the number of sentences) stores -/
theorem bg_counter_exact (p : BG.Params) (sents : List Str) (h : p.checkpoint ≤ 0 ∨ (sents.length : Int) ≤ p.checkpoint) (b : Str × Str) :
    Dict.get? (cut p.minFrequency (sents.zipIdx.foldl (sentence p) [])) b =
      if 0 < bigramCount p sents b ∧ p.minFrequency ≤ bigramCount p sents b then some (bigramCount p sents b) else none := by
  rw [get?_cut (bg_wf_fold p _ Dict.wf_nil), bg_fold_eq p sents h, Dict.get?_foldl_inc, bg_count_all]
  by_cases h1 : 0 < bigramCount p sents b
  · by_cases h2 : p.minFrequency ≤ bigramCount p sents b <;> simp [h1, h2, Option.filter]
  · simp [h1]

theorem bg_get?_extract (c : Dict (Str × Str) Nat) (wf : c.WF) (topk threshold : Int) (b : Str × Str) (u : Dict Str Nat) :
    ∃ d, extractByFrequency ⟨some c, u⟩ topk threshold = .ok d ∧ d.WF ∧
      Dict.get? d b = ((Dict.get? c b).filter (fun n : Nat => decide ((n : Int) ≥ threshold))).map (fun n => (n, n)) := by
  unfold extractByFrequency
  dsimp only
  have wf1 : Dict.WF (c.filter (fun e : (Str × Str) × Nat => decide ((e.2 : Int) ≥ threshold))) := wf.filter _
  generalize hl : (if topk > 0 then sorted (fun a b => decide (b.2 ≤ a.2)) (c.filter (fun e : (Str × Str) × Nat => decide ((e.2 : Int) ≥ threshold)))
      else c.filter (fun e : (Str × Str) × Nat => decide ((e.2 : Int) ≥ threshold))) = l
  have hp : l.Perm (c.filter (fun e : (Str × Str) × Nat => decide ((e.2 : Int) ≥ threshold))) := by
    rw [← hl]; split
    · exact sorted_perm _ _
    · exact .refl _
  have wfl : Dict.WF l := (hp.map _).nodup_iff.2 wf1
  have wfm : Dict.WF (l.map (fun e => (e.1, (e.2, e.2)))) := by
    simp only [Dict.WF, Dict.keys, List.map_map]; exact wfl
  refine ⟨_, rfl, ?_, ?_⟩
  · rw [Dict.ofList_eq_self _ wfm]; exact wfm
  · rw [Dict.ofList_eq_self _ wfm]
    have hmap : ∀ (l : Dict (Str × Str) Nat), Dict.get? (l.map (fun e => (e.1, (e.2, e.2)))) b = (Dict.get? l b).map (fun n => (n, n)) := by
      intro l
      induction l with
      | nil => rfl
      | cons e l ih =>
        obtain ⟨a, n⟩ := e
        simp only [List.map_cons, Dict.get?_cons, ih]
        by_cases h : a = b <;> simp [h]
    rw [hmap]
    congr 1
    have e1 : Dict.get? l b = Dict.get? (c.filter (fun e : (Str × Str) × Nat => decide ((e.2 : Int) ≥ threshold))) b := by
      cases hg : Dict.get? (c.filter (fun e : (Str × Str) × Nat => decide ((e.2 : Int) ≥ threshold))) b with
      | none =>
        rw [Dict.get?_eq_none_iff] at hg ⊢
        intro hm; exact hg ((hp.map _).mem_iff.1 hm)
      | some v => exact Dict.get?_of_mem wfl (hp.mem_iff.2 (Dict.mem_of_get? hg))
    rw [e1, Dict.get?_filter wf]

/-- **C33** With filtering off, `train` then `extract(topk, threshold)` holds a bigram exactly when its number of adjacent
    occurrences is positive and reaches `min_frequency` and `threshold`, with that number as frequency and score. (Filtering is
    in particular off for at most `filtering_checkpoint` sentences.) -/
theorem C33_counts (p : BG.Params) (sents : List Str) (hcp : p.checkpoint ≤ 0 ∨ (sents.length : Int) ≤ p.checkpoint) (topk threshold : Int) :
    ∃ d, extractByFrequency (train p sents).1 topk threshold = .ok d ∧ ∀ b,
      Dict.get? d b = if 0 < bigramCount p sents b ∧ p.minFrequency ≤ bigramCount p sents b ∧ threshold ≤ bigramCount p sents b
        then some (bigramCount p sents b, bigramCount p sents b) else none := by
  have key := fun b => bg_get?_extract _ (wf_counter p sents) topk threshold b (train p sents).1.unigram
  obtain ⟨d, e, _, _⟩ := key ([], [])
  refine ⟨d, e, fun b => ?_⟩
  obtain ⟨d', e', _, h⟩ := key b
  rw [e] at e'; cases e'
  rw [h, bg_counter_exact p sents hcp b]
  by_cases h1 : 0 < bigramCount p sents b
  · by_cases h2 : p.minFrequency ≤ bigramCount p sents b
    · by_cases h3 : threshold ≤ bigramCount p sents b <;> simp [h1, h2, h3, Option.filter]
    · simp [h2]
  · simp [h1]

example : bigramCount {} ["a b a b".toList] (['a'], ['b']) = 2 ∧ ((["a b a b".toList].length : Int) ≤ (100000 : Int)) := by decide +kernel

private theorem sentence_le (p : BG.Params) {d : Dict (Str × Str) Nat} (wf : d.WF) (si : Str × Nat) (b : Str × Str) :
    Dict.getD (sentence p d si) b 0 ≤ Dict.getD d b 0 + adjacent b (p.tokenizer si.1) := by
  have hc : ∀ d : Dict (Str × Str) Nat, d.WF → Dict.getD (cut p.minFrequency d) b 0 ≤ Dict.getD d b 0 := by
    intro d wf
    simp only [Dict.getD, get?_cut wf]
    cases Dict.get? d b with
    | none => simp
    | some n => by_cases h : (n : Int) ≥ p.minFrequency <;> simp [Option.filter, h]
  have h0 : Dict.getD (if p.checkpoint > 0 ∧ (si.2 : Int) % p.checkpoint = 0 then cut p.minFrequency d else d) b 0 ≤ Dict.getD d b 0 := by
    split
    · exact hc d wf
    · exact Nat.le_refl _
  unfold sentence; dsimp only
  split
  · omega
  · rw [Dict.getD_foldl_inc, adjacent_eq]; omega

/-- the count of a bigram with filtering: before a sentence whose index is a multiple of `filtering_checkpoint` (and at the end) a count below
    `min_frequency` is reset to 0 -/
def bigramRun (p : BG.Params) (sents : List Str) (b : Str × Str) : Nat :=
  prunedRun p.minFrequency 0 (sents.zipIdx.flatMap (fun x =>
    [(0, decide (0 < p.checkpoint ∧ p.checkpoint ∣ (x.2 : Int))), (adjacent b (p.tokenizer x.1), false)]) ++ [(0, true)])

private theorem prunedRun_append (m : Int) (c : Nat) (a b : List (Nat × Bool)) : prunedRun m c (a ++ b) = prunedRun m (prunedRun m c a) b := by
  induction a generalizing c with
  | nil => rfl
  | cons x a ih => exact ih _

private theorem getD_cut {d : Dict (Str × Str) Nat} (wf : d.WF) (m : Int) (b : Str × Str) :
    Dict.getD (cut m d) b 0 = if ((Dict.getD d b 0 : Nat) : Int) < m then 0 else Dict.getD d b 0 := by
  simp only [Dict.getD, get?_cut wf]
  cases Dict.get? d b with
  | none => simp
  | some n =>
    by_cases h : (n : Int) ≥ m
    · rw [Option.getD_some, if_neg (by omega)]; simp [Option.filter, h]
    · rw [Option.getD_some, if_pos (by omega)]; simp [Option.filter, h]

private theorem sentence_exact (p : BG.Params) {d : Dict (Str × Str) Nat} (wf : d.WF) (si : Str × Nat) (b : Str × Str) :
    Dict.getD (sentence p d si) b 0 = (if (0 < p.checkpoint ∧ p.checkpoint ∣ (si.2 : Int)) ∧ ((Dict.getD d b 0 : Nat) : Int) < p.minFrequency then 0 else Dict.getD d b 0) +
      adjacent b (p.tokenizer si.1) := by
  have h0 : Dict.getD (if p.checkpoint > 0 ∧ (si.2 : Int) % p.checkpoint = 0 then cut p.minFrequency d else d) b 0 =
      (if (0 < p.checkpoint ∧ p.checkpoint ∣ (si.2 : Int)) ∧ ((Dict.getD d b 0 : Nat) : Int) < p.minFrequency then 0 else Dict.getD d b 0) := by
    by_cases h : 0 < p.checkpoint ∧ p.checkpoint ∣ (si.2 : Int)
    · rw [if_pos ⟨h.1, Int.emod_eq_zero_of_dvd h.2⟩, getD_cut wf]
      simp only [h, true_and]
    · rw [if_neg (fun hc => h ⟨hc.1, Int.dvd_of_emod_eq_zero hc.2⟩), if_neg (fun hc => h hc.1)]
  unfold sentence; dsimp only
  split
  · rename_i hl
    rw [h0]
    have : toBigram (p.tokenizer si.1) = [] := by
      unfold toBigram
      match hw : p.tokenizer si.1 with
      | [] => rfl
      | [a] => rfl
      | a :: b :: l => rw [hw] at hl; simp at hl
    rw [← adjacent_eq, this]; rfl
  · rw [Dict.getD_foldl_inc, adjacent_eq, h0]

theorem bg_fold_exact (p : BG.Params) (b : Str × Str) (xs : List (Str × Nat)) (d : Dict (Str × Str) Nat) (wf : d.WF) :
    Dict.getD (xs.foldl (sentence p) d) b 0 = prunedRun p.minFrequency (Dict.getD d b 0) (xs.flatMap (fun x =>
      [(0, decide (0 < p.checkpoint ∧ p.checkpoint ∣ (x.2 : Int))), (adjacent b (p.tokenizer x.1), false)])) := by
  induction xs generalizing d with
  | nil => rfl
  | cons x xs ih =>
    rw [List.foldl_cons, ih _ (wf_sentence p wf x), sentence_exact p wf x b, List.flatMap_cons, prunedRun_append]
    congr 1
    simp only [prunedRun, Nat.add_zero, decide_eq_true_eq, Bool.false_eq_true, false_and, if_false]

theorem bg_fold_pos (p : BG.Params) (xs : List (Str × Nat)) (d : Dict (Str × Str) Nat) (h : ∀ e ∈ d, 0 < e.2) : ∀ e ∈ xs.foldl (sentence p) d, 0 < e.2 := by
  have hadd : ∀ (bs : List (Str × Str)) (d : Dict (Str × Str) Nat), (∀ e ∈ d, 0 < e.2) → ∀ e ∈ bs.foldl (fun d b => Dict.add d b 1) d, 0 < e.2 := by
    intro bs
    induction bs with
    | nil => intro d h; exact h
    | cons b bs ih =>
      intro d h
      refine ih _ ?_
      have : ∀ (d : Dict (Str × Str) Nat) (n : Nat), 0 < n → (∀ e ∈ d, 0 < e.2) → ∀ e ∈ Dict.set d b n, 0 < e.2 := by
        intro d n hn
        induction d with
        | nil => intro _ e he; simp [Dict.set] at he; subst he; exact hn
        | cons a d ihd =>
          obtain ⟨k, v⟩ := a
          intro h e he
          simp only [Dict.set] at he
          split at he
          · rcases List.mem_cons.1 he with rfl | he
            · exact hn
            · exact h e (by simp [he])
          · rcases List.mem_cons.1 he with rfl | he
            · exact h _ (by simp)
            · exact ihd (fun e he => h e (by simp [he])) e he
      exact this d _ (by omega) h
  induction xs generalizing d with
  | nil => exact h
  | cons x xs ih =>
    refine ih _ ?_
    have h1 : ∀ e ∈ (if p.checkpoint > 0 ∧ (x.2 : Int) % p.checkpoint = 0 then cut p.minFrequency d else d), 0 < e.2 := by
      split
      · intro e he; exact h e (List.mem_filter.1 he).1
      · exact h
    unfold sentence; dsimp only
    split
    · exact h1
    · exact hadd _ _ h1

/-- **C33** The counter after any training, with filtering: a bigram is kept exactly if the filtered count is positive, with that count. -/
theorem C33_exact (p : BG.Params) (sents : List Str) :
    ∃ c, (train p sents).1.counter = some c ∧ (c.map (·.1)).Nodup ∧ ∀ b, Dict.get? c b = if 0 < bigramRun p sents b then some (bigramRun p sents b) else none := by
  refine ⟨_, counter_eq p sents, wf_counter p sents, fun b => ?_⟩
  have hD : Dict.getD (cut p.minFrequency (sents.zipIdx.foldl (sentence p) [])) b 0 = bigramRun p sents b := by
    rw [getD_cut (bg_wf_fold p _ Dict.wf_nil), bg_fold_exact p b _ _ Dict.wf_nil]
    unfold bigramRun
    rw [prunedRun_append]
    simp only [prunedRun, Nat.add_zero, true_and, Dict.getD, Dict.get?_nil, Option.getD_none]
    congr 1
  have hp : ∀ e ∈ cut p.minFrequency (sents.zipIdx.foldl (sentence p) []), 0 < e.2 :=
    fun e he => bg_fold_pos p _ [] (by simp) e (List.mem_filter.1 he).1
  generalize cut p.minFrequency (sents.zipIdx.foldl (sentence p) []) = c at hD hp
  cases hg : Dict.get? c b with
  | none =>
    rw [Dict.getD, hg, Option.getD_none] at hD
    rw [← hD]; rfl
  | some n =>
    have := hp _ (Dict.mem_of_get? hg)
    rw [Dict.getD, hg, Option.getD_some] at hD
    dsimp only at this
    rw [← hD, if_pos this]

/-- a bigram filtered out on the way and counted again later: of three occurrences one is reported -/
example : bigramRun { minFrequency := 1, checkpoint := 2 } ["a b".toList, "a b".toList, "a b".toList] (['a'], ['b']) = 3 ∧
    bigramRun { minFrequency := 2, checkpoint := 1 } ["a b a b".toList, "a b c a b".toList, "b c".toList] (['b'], ['c']) = 0 ∧
    bigramRun { minFrequency := 2, checkpoint := 1 } ["a b a b".toList, "a b c a b".toList, "b c".toList] (['a'], ['b']) = 4 := by decide +kernel

/-- **C33** With filtering the extracted frequencies are exactly the filtered counts that reach the threshold; they never exceed the true number
    of occurrences. -/
theorem C33_filtered (p : BG.Params) (sents : List Str) (topk threshold : Int) :
    ∃ d, extractByFrequency (train p sents).1 topk threshold = .ok d ∧
      (∀ b, Dict.get? d b = if 0 < bigramRun p sents b ∧ threshold ≤ bigramRun p sents b then some (bigramRun p sents b, bigramRun p sents b) else none) ∧
      ∀ b n s, Dict.get? d b = some (n, s) → n = s ∧ n ≤ bigramCount p sents b ∧ p.minFrequency ≤ n ∧ threshold ≤ n := by
  obtain ⟨c, hc, _, hx⟩ := C33_exact p sents
  have hcc : cut p.minFrequency (sents.zipIdx.foldl (sentence p) []) = c := Option.some.inj hc
  have key := fun b => bg_get?_extract _ (wf_counter p sents) topk threshold b (train p sents).1.unigram
  obtain ⟨d, e, _, _⟩ := key ([], [])
  refine ⟨d, e, fun b => ?_, fun b n s hb => ?_⟩
  · obtain ⟨d', e', _, h⟩ := key b
    rw [e] at e'; cases e'
    rw [h, hcc, hx]
    by_cases h1 : 0 < bigramRun p sents b
    · by_cases h2 : threshold ≤ bigramRun p sents b <;> simp [h1, h2, Option.filter]
    · simp [h1]
  obtain ⟨d', e', _, h⟩ := key b
  rw [e] at e'; cases e'
  rw [h] at hb
  have hle : ∀ (ss : List Str) (k : Nat) (d : Dict (Str × Str) Nat), d.WF →
      Dict.getD ((ss.zipIdx k).foldl (sentence p) d) b 0 ≤ Dict.getD d b 0 + bigramCount p ss b := by
    intro ss
    induction ss with
    | nil => intro k d _; simp
    | cons x xs ih =>
      intro k d wf
      have := ih (k + 1) _ (wf_sentence p wf (x, k))
      have h2 := sentence_le p wf (x, k) b
      dsimp only at h2
      simp only [bigramCount, List.zipIdx_cons, List.foldl_cons, List.map_cons, List.sum_cons] at this ⊢
      omega
  have := hle sents 0 [] Dict.wf_nil
  rw [get?_cut (bg_wf_fold p _ Dict.wf_nil)] at hb
  simp only [Dict.getD, Dict.get?_nil, Option.getD_none, Nat.zero_add] at this
  cases hg : Dict.get? (sents.zipIdx.foldl (sentence p) []) b with
  | none => rw [hg] at hb; simp at hb
  | some m =>
    rw [hg] at hb this
    simp only [Option.getD_some] at this
    by_cases h1 : (m : Int) ≥ p.minFrequency
    · by_cases h2 : (m : Int) ≥ threshold
      · simp [Option.filter, h1, h2] at hb
        obtain ⟨rfl, rfl⟩ := hb
        exact ⟨rfl, this, h1, h2⟩
      · simp [Option.filter, h1, h2] at hb
    · simp [Option.filter, h1] at hb

/-- **C33** (violated expectation) `topk` does not limit the number of bigrams: any two values of `topk` give the same mapping. -/
theorem C33_topk_ignored (p : BG.Params) (sents : List Str) (topk topk' threshold : Int) :
    ∃ d d', extractByFrequency (train p sents).1 topk threshold = .ok d ∧ extractByFrequency (train p sents).1 topk' threshold = .ok d' ∧
      ∀ b, Dict.get? d b = Dict.get? d' b := by
  have key := fun t b => bg_get?_extract _ (wf_counter p sents) t threshold b (train p sents).1.unigram
  obtain ⟨d, e, _, _⟩ := key topk ([], [])
  obtain ⟨d', e', _, _⟩ := key topk' ([], [])
  refine ⟨d, d', e, e', fun b => ?_⟩
  obtain ⟨d1, e1, _, h1⟩ := key topk b
  obtain ⟨d2, e2, _, h2⟩ := key topk' b
  rw [e] at e1; cases e1
  rw [e'] at e2; cases e2
  rw [h1, h2]

/-- two bigrams come back although one was asked for -/
example : extractByFrequency (train { minFrequency := 1 } ["a b c".toList]).1 1 0 =
    .ok [((['a'], ['b']), (1, 1)), ((['b'], ['c']), (1, 1))] := by decide +kernel

/-- **C33** Extraction before training raises (`None.items()`), with every score; training on no sentence raises exactly when verbose. -/
theorem C33_errors (p : BG.Params) (sents : List Str) (topk threshold : Int) (x : ℝ) :
    extractByFrequency {} topk threshold = .error .attributeError ∧ extractByPmi {} x = .error .attributeError ∧
    extractByMikolov p {} x = .error .attributeError ∧
    (train p sents).2 = (if p.verbose = true ∧ sents = [] then .error .unboundLocal else .ok ()) := ⟨rfl, rfl, rfl, rfl⟩

/-! ## the PMI and Mikolov scores -/

/-- in how many kept bigrams (types, not occurrences) `x` takes part, counted once per side -/
def bigramTypes (c : Dict (Str × Str) Nat) (x : Str) : Nat := c.countP (fun e => decide (e.1.1 = x)) + c.countP (fun e => decide (e.1.2 = x))

private theorem getD_unigrams (c : Dict (Str × Str) Nat) (x : Str) :
    Dict.getD (unigrams c) x 0 = bigramTypes c x := by
  unfold unigrams
  have : ∀ (c : Dict (Str × Str) Nat) (u : Dict Str Nat),
      Dict.getD (c.foldl (fun u e => Dict.add (Dict.add u e.1.1 1) e.1.2 1) u) x 0 = Dict.getD u x 0 + bigramTypes c x := by
    intro c
    induction c with
    | nil => intro u; simp [bigramTypes]
    | cons e c ih =>
      intro u
      rw [List.foldl_cons, ih, Dict.getD_add, Dict.getD_add]
      simp only [bigramTypes, List.countP_cons, decide_eq_true_eq]
      omega
  rw [this c []]; simp [Dict.getD]

private theorem scoreWith_ok (c : Dict (Str × Str) Nat) (f : Nat → Nat → ℝ) (e : (Str × Str) × Nat) (he : e ∈ c) :
    scoreWith (unigrams c) f e = .ok (f e.2 (bigramTypes c e.1.1 * bigramTypes c e.1.2)) := by
  have pos : ∀ x, (x = e.1.1 ∨ x = e.1.2) → 0 < bigramTypes c x := by
    rintro x (rfl | rfl)
    · have : 0 < c.countP (fun e' => decide (e'.1.1 = e.1.1)) := List.countP_pos_iff.2 ⟨e, he, by simp⟩
      unfold bigramTypes; omega
    · have : 0 < c.countP (fun e' => decide (e'.1.2 = e.1.2)) := List.countP_pos_iff.2 ⟨e, he, by simp⟩
      unfold bigramTypes; omega
  have get : ∀ x, (x = e.1.1 ∨ x = e.1.2) → Dict.get? (unigrams c) x = some (bigramTypes c x) := by
    intro x hx
    have h1 := getD_unigrams c x
    have h2 := pos x hx
    cases hg : Dict.get? (unigrams c) x with
    | none => simp [Dict.getD, hg] at h1; omega
    | some v => simp [Dict.getD, hg] at h1; rw [h1]
  unfold scoreWith
  rw [get _ (Or.inl rfl), get _ (Or.inr rfl)]
  dsimp only
  rw [if_neg]
  have := pos _ (Or.inl rfl); have := pos _ (Or.inr rfl)
  have := Nat.mul_pos (pos _ (Or.inl rfl)) (pos _ (Or.inr rfl))
  omega

private theorem scoreAll_ok (score : (Str × Str) × Nat → PyM ℝ) (v : (Str × Str) × Nat → ℝ) (threshold : ℝ)
    (es : Dict (Str × Str) Nat) (h : ∀ e ∈ es, score e = .ok (v e)) (wf : es.WF) (acc : Dict (Str × Str) (Nat × ℝ)) :
    ∃ d, scoreAll score threshold es acc = .ok d ∧ ∀ b n s, Dict.get? d b = some (n, s) ↔
      (Dict.get? es b = some n ∧ s = v (b, n) ∧ threshold ≤ s) ∨
      ((∀ m, Dict.get? es b = some m → ¬ threshold ≤ v (b, m)) ∧ Dict.get? acc b = some (n, s)) := by
  classical
  induction es generalizing acc with
  | nil => exact ⟨acc, rfl, fun b n s => by simp⟩
  | cons e es ih =>
    obtain ⟨k, m⟩ := e
    have wf' := wf
    simp only [Dict.WF, Dict.keys, List.map_cons, List.nodup_cons] at wf'
    have hk : Dict.get? es k = none := by rw [Dict.get?_eq_none_iff]; exact wf'.1
    obtain ⟨d, hd, hspec⟩ := ih (fun e he => h e (by simp [he])) wf'.2 (if v (k, m) ≥ threshold then Dict.set acc k (m, v (k, m)) else acc)
    refine ⟨d, by simp only [scoreAll, h (k, m) (by simp)]; rw [← hd], fun b n s => ?_⟩
    rw [hspec, Dict.get?_cons]
    by_cases hb : k = b
    · subst hb
      simp only [hk, if_true, reduceCtorEq, false_and, false_or, IsEmpty.forall_iff, implies_true, true_and, Option.some.injEq]
      by_cases hv : v (k, m) ≥ threshold
      · rw [if_pos hv, Dict.get?_set, if_pos rfl]
        constructor
        · intro he; cases he; exact Or.inl ⟨rfl, rfl, hv⟩
        · rintro (⟨rfl, rfl, _⟩ | ⟨h1, _⟩)
          · rfl
          · exact absurd hv (h1 m rfl)
      · rw [if_neg hv]
        constructor
        · intro he
          exact Or.inr ⟨by rintro m' rfl; exact hv, he⟩
        · rintro (⟨rfl, rfl, h3⟩ | ⟨_, h2⟩)
          · exact absurd h3 hv
          · exact h2
    · rw [if_neg hb]
      have : Dict.get? (if v (k, m) ≥ threshold then Dict.set acc k (m, v (k, m)) else acc) b = Dict.get? acc b := by
        split
        · rw [Dict.get?_set, if_neg hb]
        · rfl
      rw [this]

private theorem extract_scored (p : BG.Params) (sents : List Str) (threshold : ℝ) (f : Nat → Nat → ℝ) :
    ∃ c, (train p sents).1.counter = some c ∧ ∃ d, scoreAll (scoreWith (train p sents).1.unigram f) threshold c [] = .ok d ∧
      ∀ b n s, Dict.get? d b = some (n, s) ↔
        Dict.get? c b = some n ∧ s = f n (bigramTypes c b.1 * bigramTypes c b.2) ∧ threshold ≤ s := by
  refine ⟨_, rfl, ?_⟩
  obtain ⟨d, hd, h⟩ := scoreAll_ok (scoreWith (unigrams (cut p.minFrequency (sents.zipIdx.foldl (sentence p) []))) f)
    (fun e => f e.2 (bigramTypes (cut p.minFrequency (sents.zipIdx.foldl (sentence p) [])) e.1.1 *
      bigramTypes (cut p.minFrequency (sents.zipIdx.foldl (sentence p) [])) e.1.2)) threshold _
    (fun e he => scoreWith_ok _ f e he) (wf_counter p sents) []
  exact ⟨d, hd, fun b n s => by rw [h]; simp⟩

/-- **C33** After any training, PMI extraction raises nothing and keeps exactly the counted bigrams whose score
    `log(2·total·freq / (types(w0)·types(w1)))` reaches the threshold. The denominators count bigram *types*, not word
    frequencies (so this is not the pointwise mutual information of the corpus). -/
theorem C33_pmi (p : BG.Params) (sents : List Str) (threshold : ℝ) :
    ∃ c d, (c.map (·.1)).Nodup ∧ (∀ b, Dict.get? c b = if 0 < bigramRun p sents b then some (bigramRun p sents b) else none) ∧
      extractByPmi (train p sents).1 threshold = .ok d ∧
      ∀ b n s, Dict.get? d b = some (n, s) ↔ Dict.get? c b = some n ∧
        s = Real.log (((2 * (c.map (·.2)).sum : Nat) : ℝ) * n / ((bigramTypes c b.1 * bigramTypes c b.2 : Nat) : ℝ)) ∧ threshold ≤ s := by
  obtain ⟨c, hc, d, hd, h⟩ := extract_scored p sents threshold
    (fun freq base => Real.log (((2 * ((cut p.minFrequency (sents.zipIdx.foldl (sentence p) [])).map (·.2)).sum : Nat) : ℝ) * freq / base))
  have hcc : cut p.minFrequency (sents.zipIdx.foldl (sentence p) []) = c := Option.some.inj hc
  obtain ⟨c', hc', hn, hx⟩ := C33_exact p sents
  rw [hc] at hc'; cases hc'
  refine ⟨c, d, hn, hx, ?_, ?_⟩
  · unfold extractByPmi; rw [hc]; dsimp only; rw [← hd, hcc]
  · intro b n s; rw [h, hcc]

/-- **C33** Mikolov's score likewise: `(freq - min_frequency) / (types(w0)·types(w1))`. -/
theorem C33_mikolov (p : BG.Params) (sents : List Str) (threshold : ℝ) :
    ∃ c d, (c.map (·.1)).Nodup ∧ (∀ b, Dict.get? c b = if 0 < bigramRun p sents b then some (bigramRun p sents b) else none) ∧
      extractByMikolov p (train p sents).1 threshold = .ok d ∧
      ∀ b n s, Dict.get? d b = some (n, s) ↔ Dict.get? c b = some n ∧
        s = ((n : ℝ) - p.minFrequency) / ((bigramTypes c b.1 * bigramTypes c b.2 : Nat) : ℝ) ∧ threshold ≤ s := by
  obtain ⟨c, hc, d, hd, h⟩ := extract_scored p sents threshold (fun freq base => ((freq : ℝ) - p.minFrequency) / base)
  obtain ⟨c', hc', hn, hx⟩ := C33_exact p sents
  rw [hc] at hc'; cases hc'
  refine ⟨c, d, hn, hx, ?_, h⟩
  unfold extractByMikolov; rw [hc]; exact hd

private theorem get?_mapv {κ α β : Type} [DecidableEq κ] (d : Dict κ α) (f : α → β) (k : κ) :
    Dict.get? (d.map (fun e => (e.1, f e.2))) k = (Dict.get? d k).map f := by
  induction d with
  | nil => rfl
  | cons e d ih =>
    obtain ⟨a, v⟩ := e
    rw [List.map_cons, Dict.get?_cons, Dict.get?_cons]
    split
    · rfl
    · exact ih

/-- **C33** `extract` with a score other than frequency, pmi and mikolov raises, trained or not - the constructor accepts it. With frequency, after
    training without early filtering, it reports exactly the bigrams frequent enough, with the frequency as score. -/
theorem C33_extract (p : BG.Params) (score : Str) (s : BG.State) (sents : List Str) (topk : Int) (threshold : ℝ) :
    (score ∉ ["frequency".toList, "pmi".toList, "mikolov".toList] → extract p score s topk threshold = .error .typeError) ∧
    extract p "pmi".toList s topk threshold = extractByPmi s threshold ∧
    extract p "mikolov".toList s topk threshold = extractByMikolov p s threshold ∧
    ((p.checkpoint ≤ 0 ∨ (sents.length : Int) ≤ p.checkpoint) →
      ∃ d, extract p "frequency".toList (train p sents).1 topk threshold = .ok d ∧ ∀ b n x, Dict.get? d b = some (n, x) ↔
        n = bigramCount p sents b ∧ x = n ∧ 0 < n ∧ p.minFrequency ≤ n ∧ threshold ≤ n) := by
  refine ⟨?_, ?_, ?_, ?_⟩
  · intro h
    simp only [List.mem_cons, List.not_mem_nil, or_false, not_or] at h
    unfold extract
    rw [if_neg h.1, if_neg h.2.1, if_neg h.2.2]
  · unfold extract
    rw [if_neg (by decide +kernel), if_pos rfl]
  · unfold extract
    rw [if_neg (by decide +kernel), if_neg (by decide +kernel), if_pos rfl]
  · intro hcp
    obtain ⟨d, hd, hb⟩ := C33_counts p sents hcp topk ⌈threshold⌉
    refine ⟨_, by unfold extract; rw [if_pos rfl, hd]; rfl, ?_⟩
    intro b n x
    rw [get?_mapv d (fun v : Nat × Nat => (v.1, (v.2 : ℝ))), hb b]
    by_cases h : 0 < bigramCount p sents b ∧ p.minFrequency ≤ bigramCount p sents b ∧ ⌈threshold⌉ ≤ bigramCount p sents b
    · rw [if_pos h]
      simp only [Option.map_some, Option.some.injEq, Prod.mk.injEq]
      constructor
      · rintro ⟨rfl, rfl⟩
        exact ⟨rfl, rfl, h.1, h.2.1, by have := Int.ceil_le.1 h.2.2; exact_mod_cast this⟩
      · rintro ⟨rfl, rfl, _⟩; exact ⟨rfl, rfl⟩
    · rw [if_neg h]
      simp only [Option.map_none, reduceCtorEq, false_iff]
      rintro ⟨rfl, _, h1, h2, h3⟩
      exact h ⟨h1, h2, Int.ceil_le.2 (by exact_mod_cast h3)⟩

end Props
