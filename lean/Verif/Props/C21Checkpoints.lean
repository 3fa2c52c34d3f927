import Verif.Props.C21_C23
/-! C21: the counts of `EojeolCounter` when it forgets rare eojeols at checkpoints, exactly. -/
namespace Props
open Py EC

/-- the count of one eojeol over the sentences from the `i`-th on, `c` before them, `ns` being its occurrences per sentence: in front of every sentence whose
    index is a positive multiple of `k` (0: never) a count below `m` is forgotten -/
def forgetful (m : Int) (k : Nat) : Nat → Int → List Nat → Int
  | _, c, [] => c
  | i, c, n :: ns => forgetful m k (i + 1) ((if 0 < k ∧ 0 < i ∧ k ∣ i ∧ c < m then 0 else c) + n) ns

private theorem at_iff (p : Params) (k : Nat) (hk : p.checkpoint = k ∨ p.checkpoint ≤ 0 ∧ k = 0) (hm : 1 < p.minCount) (i : Nat) :
    atCheckpoint p i = true ↔ 0 < k ∧ 0 < i ∧ k ∣ i := by
  unfold atCheckpoint
  simp only [Bool.and_eq_true, decide_eq_true_eq]
  rcases hk with hk | ⟨hk, rfl⟩
  · rw [hk]
    constructor
    · rintro ⟨⟨⟨_, h1⟩, h2⟩, h3⟩
      exact ⟨by omega, h2, Int.natCast_dvd_natCast.1 (Int.dvd_of_emod_eq_zero h3)⟩
    · rintro ⟨h1, h2, h3⟩
      exact ⟨⟨⟨hm, by omega⟩, h2⟩, Int.emod_eq_zero_of_dvd (Int.natCast_dvd_natCast.2 h3)⟩
  · constructor
    · rintro ⟨⟨⟨_, h1⟩, _⟩, _⟩; omega
    · rintro ⟨h1, _⟩; omega

private theorem go (p : Params) (k : Nat) (hk : p.checkpoint = k ∨ p.checkpoint ≤ 0 ∧ k = 0) (e : Str) (he : (e.length : Int) ≤ p.maxLength)
    (sents : List Str) (i : Nat) (d : Dict Str Int) (h : d.WF ∧ ∀ kv ∈ d, 1 ≤ kv.2 ∧ kv.1 ≠ []) :
    Dict.getD ((sents.zipIdx i).foldl (countSent p) d) e 0 =
      forgetful p.minCount k i (Dict.getD d e 0) (sents.map (fun s => (splitWs (p.preprocess s)).count e)) := by
  induction sents generalizing i d with
  | nil => rfl
  | cons s sents ih =>
    rw [List.zipIdx_cons, List.foldl_cons, ih (i + 1) _ (countSent_inv p d (s, i) h), List.map_cons, forgetful]
    congr 1
    unfold countSent
    dsimp only
    rw [getD_foldl_addEojeol p _ (fun w hw => splitWs_nonempty hw), if_pos he]
    congr 1
    by_cases hm : 1 < p.minCount
    · by_cases hc : 0 < k ∧ 0 < i ∧ k ∣ i
      · rw [if_pos ((at_iff p k hk hm i).2 hc), getD_filterMin h.1]
        by_cases hl : Dict.getD d e 0 < p.minCount
        · rw [if_neg (by omega), if_pos ⟨hc.1, hc.2.1, hc.2.2, hl⟩]
        · rw [if_pos (by omega), if_neg (fun h => hl h.2.2.2)]
      · rw [if_neg (fun h => hc ((at_iff p k hk hm i).1 h)), if_neg (fun h => hc ⟨h.1, h.2.1, h.2.2.1⟩)]
    · have : ¬ atCheckpoint p i = true := by
        unfold atCheckpoint
        simp only [Bool.and_eq_true, decide_eq_true_eq]
        rintro ⟨⟨⟨h, _⟩, _⟩, _⟩
        exact hm h
      rw [if_neg this]
      have hn := getD_nonneg h.2 e
      split
      · rename_i hl
        -- a stored count is at least 1
        have h0 : Dict.getD d e 0 < 1 := by omega
        omega
      · rfl

/-- **C21** The counts, exactly, for all parameters: an eojeol of admissible length has the count of a counter run over the sentences that forgets a count
    below `min_count` in front of every sentence whose index is a positive multiple of `filtering_checkpoint`, and once more at the end; every other eojeol
    has count 0. -/
theorem C21_checkpoints (p : Params) (sents : List Str) (hne : sents ≠ []) (e : Str) :
    ∃ s, construct p (some sents) = .ok s ∧
      let c := forgetful p.minCount p.checkpoint.toNat 0 0 (sents.map (fun s => (splitWs (p.preprocess s)).count e))
      getitem s e = if (e.length : Int) ≤ p.maxLength ∧ p.minCount ≤ c then c else 0 := by
  obtain ⟨s, hs, _, _, _⟩ := C21_bounds p sents hne
  refine ⟨s, hs, ?_⟩
  dsimp only
  have hs' : s.counter = filterMin p.minCount (sents.zipIdx.foldl (countSent p) []) := by
    unfold construct counting checkCorpus at hs
    dsimp only at hs
    rw [if_neg (by have := List.length_pos_iff.2 hne; omega)] at hs
    cases hs; rfl
  have hinv := foldl_countSent_inv p sents.zipIdx [] ⟨Dict.wf_nil, fun kv h => by (cases h)⟩
  unfold getitem
  rw [hs', getD_filterMin hinv.1]
  by_cases he : (e.length : Int) ≤ p.maxLength
  · have := go p p.checkpoint.toNat (by omega) e he sents 0 [] ⟨Dict.wf_nil, fun kv h => by (cases h)⟩
    rw [this]
    have h0 : Dict.getD ([] : Dict Str Int) e 0 = 0 := rfl
    rw [h0]
    split
    · rename_i h; rw [if_pos ⟨he, h⟩]
    · rename_i h; rw [if_neg (fun x => h x.2)]
  · have := foldl_countSent_long p sents 0 [] ⟨Dict.wf_nil, fun kv h => by (cases h)⟩ e he rfl
    rw [this, ite_self, if_neg (show ¬ ((e.length : Int) ≤ p.maxLength ∧ _) from fun x => he x.1)]

/-- what is forgotten at checkpoints only lowers the count: it stays between 0 and the number of occurrences -/
theorem forgetful_bounds (m : Int) (k i : Nat) (c : Int) (hc : 0 ≤ c) (ns : List Nat) : 0 ≤ forgetful m k i c ns ∧ forgetful m k i c ns ≤ c + (ns.sum : Nat) := by
  induction ns generalizing i c with
  | nil => simp [forgetful, hc]
  | cons n ns ih =>
    rw [forgetful, List.sum_cons]
    have := ih (i + 1) ((if 0 < k ∧ 0 < i ∧ k ∣ i ∧ c < m then 0 else c) + n) (by split <;> omega)
    split at this <;> rename_i h
    · rw [if_pos h]; omega
    · rw [if_neg h]; omega

/-- nothing is forgotten without checkpoints, with a minimal count of at most 1, or before the first checkpoint -/
theorem forgetful_eq (m : Int) (k i : Nat) (c : Int) (hc : 0 ≤ c) (ns : List Nat) (h : k = 0 ∨ m ≤ 1 ∨ i + ns.length ≤ k) :
    forgetful m k i c ns = c + (ns.sum : Nat) := by
  induction ns generalizing i c with
  | nil => simp [forgetful]
  | cons n ns ih =>
    rw [forgetful, List.sum_cons]
    have hz : (if 0 < k ∧ 0 < i ∧ k ∣ i ∧ c < m then 0 else c) = c := by
      split
      · rename_i hx
        rcases h with h | h | h
        · omega
        · omega
        · have := Nat.le_of_dvd hx.2.1 hx.2.2.1
          rw [List.length_cons] at h
          omega
      · rfl
    rw [hz, ih (i + 1) (c + n) (by omega) (by rw [List.length_cons] at h; omega)]
    omega

/-- 가 occurs five times; with a checkpoint at every second sentence and `min_count` 2, the lone occurrences before a checkpoint are forgotten -/
example : forgetful 2 2 0 0 [1, 0, 2, 0, 1, 1] = 4 ∧
    (match construct { minCount := 2, checkpoint := 2 } (some ["가".toList, "나".toList, "가 가".toList, "나".toList, "가".toList, "가".toList]) with
      | .ok s => some (getitem s "가".toList, getitem s "나".toList) | .error _ => none) = some (4, 0) := by decide +kernel

end Props
