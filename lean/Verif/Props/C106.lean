import Verif.Props.C21_C23
import Verif.Props.C24_C28
import Verif.Props.C30_C32
import Verif.Props.C33
import Verif.Props.C77
/-!
C106: counting a corpus in parts. When nothing is dropped (a minimum count of at most 1) the counts of a corpus are the sums of the counts of
its parts, for all the counters of the library. With a higher minimum the whole corpus never counts less than its parts together, and for
`EojeolCounter` at most `2 * (min_count - 1)` more.
-/
namespace Props
open Py

private theorem eojeolsOf_append (f : Str → Str) (A B : List Str) : eojeolsOf f (A ++ B) = eojeolsOf f A ++ eojeolsOf f B := by
  unfold eojeolsOf; rw [List.flatMap_append]

private theorem noCheckpoints_part {p : EC.Params} {n m : Nat} (h : NoCheckpoints p (n + m)) : NoCheckpoints p n ∧ NoCheckpoints p m := by
  unfold NoCheckpoints at *; omega

/-- **C106** `EojeolCounter`, no filtering at checkpoints: the whole corpus counts an eojeol at least as often as its two parts together, and
    at most `2 * (min_count - 1)` times more. -/
theorem C106_eojeols (p : EC.Params) (A B : List Str) (hA : A ≠ []) (hB : B ≠ []) (hno : NoCheckpoints p (A.length + B.length)) :
    ∃ sA sB sAB, EC.construct p (some A) = .ok sA ∧ EC.construct p (some B) = .ok sB ∧ EC.construct p (some (A ++ B)) = .ok sAB ∧
      (∀ e, EC.getitem sA e + EC.getitem sB e ≤ EC.getitem sAB e ∧
        (1 ≤ p.minCount → EC.getitem sAB e ≤ EC.getitem sA e + EC.getitem sB e + 2 * (p.minCount - 1))) ∧
      (p.minCount ≤ 1 → ∀ e, EC.getitem sAB e = EC.getitem sA e + EC.getitem sB e) := by
  obtain ⟨nA, nB⟩ := noCheckpoints_part hno
  obtain ⟨sA, eA, _, gA, _⟩ := C21_exact p A hA nA
  obtain ⟨sB, eB, _, gB, _⟩ := C21_exact p B hB nB
  obtain ⟨sAB, eAB, _, gAB, _⟩ := C21_exact p (A ++ B) (by simp [hA]) (by rw [List.length_append]; exact hno)
  have hc : ∀ e, ((eojeolsOf p.preprocess (A ++ B)).count e : Int) = (eojeolsOf p.preprocess A).count e + (eojeolsOf p.preprocess B).count e := by
    intro e; rw [eojeolsOf_append, List.count_append]; push_cast; rfl
  refine ⟨sA, sB, sAB, eA, eB, eAB, fun e => ?_, fun hm e => ?_⟩
  · rw [gA e, gB e, gAB e, hc e]
    split_ifs <;> omega
  · rw [gA e, gB e, gAB e, hc e]
    split_ifs <;> omega

private theorem tokensOf_append (A B : List Str) : tokensOf (A ++ B) = tokensOf A ++ tokensOf B := by unfold tokensOf; rw [List.flatMap_append]

/-- **C106** `WordExtractor`, no intermediate pruning: training on `A` and then on `B` gives every left and right part at most the frequency
    training on the whole corpus gives it, and with a `min_frequency` of at most 1 the same. -/
theorem C106_word_extractor (p : WX.Params) (s0 : WX.State) (A B : List Str) (hA : A ≠ []) (hB : B ≠ []) (k : Int) (hk : k ≤ 0) :
    ∃ s1 s2 s, WX.train p s0 A k false = .ok s1 ∧ WX.train p s1 B k true = .ok s2 ∧ WX.train p s0 (A ++ B) k false = .ok s ∧
      (∀ w, (WX.frequency s2 w).1 ≤ (WX.frequency s w).1 ∧ (WX.frequency s2 w).2 ≤ (WX.frequency s w).2) ∧
      (p.minFrequency ≤ 1 → ∀ w, WX.frequency s2 w = WX.frequency s w) := by
  obtain ⟨s1, e1, g1⟩ := C30_counts p s0 A k false hA hk (.inl rfl)
  have e1' : WX.train p {} A k false = .ok s1 := by rw [← e1]; rfl
  have hg := (Trained.step A k false .fresh e1' : Trained p s1).good
  obtain ⟨s2, e2, g2⟩ := C30_cumulate p s1 ⟨hg.wL, hg.wR⟩ B k hB hk
  obtain ⟨s, e, g⟩ := C30_counts p s0 (A ++ B) k false (by simp [hA]) hk (.inl rfl)
  have hL : ∀ w, prefixCount p.maxLeft (tokensOf (A ++ B)) w = prefixCount p.maxLeft (tokensOf A) w + prefixCount p.maxLeft (tokensOf B) w := by
    intro w; unfold prefixCount; rw [tokensOf_append, List.countP_append]
  have hR : ∀ w, suffixCount p.maxRight (tokensOf (A ++ B)) w = suffixCount p.maxRight (tokensOf A) w + suffixCount p.maxRight (tokensOf B) w := by
    intro w; unfold suffixCount; rw [tokensOf_append, List.countP_append]
  have value : ∀ (x : Option Nat) (n : Nat) (m : Int), x = (if 0 < n ∧ m ≤ n then some n else none) → x.getD 0 = if m ≤ n then n else 0 := by
    intro x n m h
    rw [h]
    by_cases h0 : 0 < n
    · by_cases h1 : m ≤ n <;> simp [h0, h1]
    · have : n = 0 := by omega
      subst this; simp
  refine ⟨s1, s2, s, e1, e2, e, fun w => ?_, fun hm w => ?_⟩
  · have h1L := value _ _ _ (g1 w).1
    have h1R := value _ _ _ (g1 w).2.1
    have hsL := value _ _ _ (g w).1
    have hsR := value _ _ _ (g w).2.1
    rw [hL] at hsL
    rw [hR] at hsR
    rw [(g w).2.2]
    show (Dict.getD s2.L w 0) ≤ _ ∧ (Dict.getD s2.R w 0) ≤ _
    rw [(g2 w).1, (g2 w).2]
    unfold Dict.getD
    rw [h1L, h1R, hsL, hsR]
    constructor <;> split_ifs <;> omega
  · have h1L := value _ _ _ (g1 w).1
    have h1R := value _ _ _ (g1 w).2.1
    have hsL := value _ _ _ (g w).1
    have hsR := value _ _ _ (g w).2.1
    rw [hL] at hsL
    rw [hR] at hsR
    rw [(g w).2.2]
    show (Dict.getD s2.L w 0, Dict.getD s2.R w 0) = _
    rw [(g2 w).1, (g2 w).2]
    unfold Dict.getD
    rw [h1L, h1R, hsL, hsR]
    refine Prod.ext ?_ ?_ <;> dsimp only <;> split_ifs <;> omega

/-- **C106** `Bigram`, no filtering at checkpoints: the count of a pair in the whole corpus (0 if it is not listed) is at least the sum over
    the parts, and with a `min_frequency` of at most 1 equal to it. -/
theorem C106_bigram (p : BG.Params) (A B : List Str) (hcp : p.checkpoint ≤ 0 ∨ ((A.length + B.length : Nat) : Int) ≤ p.checkpoint) (topk : Int) :
    ∃ dA dB dAB, BG.extractByFrequency (BG.train p A).1 topk 0 = .ok dA ∧ BG.extractByFrequency (BG.train p B).1 topk 0 = .ok dB ∧
      BG.extractByFrequency (BG.train p (A ++ B)).1 topk 0 = .ok dAB ∧
      (∀ b, (Dict.getD dA b (0, 0)).1 + (Dict.getD dB b (0, 0)).1 ≤ (Dict.getD dAB b (0, 0)).1) ∧
      (p.minFrequency ≤ 1 → ∀ b, (Dict.getD dAB b (0, 0)).1 = (Dict.getD dA b (0, 0)).1 + (Dict.getD dB b (0, 0)).1) := by
  obtain ⟨dA, eA, gA⟩ := C33_counts p A (by omega) topk 0
  obtain ⟨dB, eB, gB⟩ := C33_counts p B (by omega) topk 0
  obtain ⟨dAB, eAB, gAB⟩ := C33_counts p (A ++ B) (by rw [List.length_append]; exact hcp) topk 0
  have hc : ∀ b, bigramCount p (A ++ B) b = bigramCount p A b + bigramCount p B b := by
    intro b; unfold bigramCount; rw [List.map_append, List.sum_append]
  have value : ∀ (x : Option (Nat × Nat)) (n : Nat) (m : Int), x = (if 0 < n ∧ m ≤ n ∧ (0 : Int) ≤ n then some (n, n) else none) →
      (x.getD (0, 0)).1 = if m ≤ n then n else 0 := by
    intro x n m h
    rw [h]
    by_cases h0 : 0 < n
    · by_cases h1 : m ≤ n <;> simp [h0, h1]
    · have : n = 0 := by omega
      subst this; simp
  refine ⟨dA, dB, dAB, eA, eB, eAB, fun b => ?_, fun hm b => ?_⟩ <;>
  · have hA := value _ _ _ (gA b)
    have hB := value _ _ _ (gB b)
    have hAB := value _ _ _ (gAB b)
    rw [hc] at hAB
    unfold Dict.getD
    rw [hA, hB, hAB]
    split_ifs <;> omega

/-- **C106** `NewsNounExtractor`: training replaces, and the frequency of a left part in the whole corpus is the sum over the parts. -/
theorem C106_news_noun (p : NewsNoun.Params) (s : NewsNoun.State) (A B : List Str) (hA : A ≠ []) (hB : B ≠ []) :
    ∃ tA tB tAB, NewsNoun.train p s A = .ok { s with trained := some tA } ∧ NewsNoun.train p s B = .ok { s with trained := some tB } ∧
      NewsNoun.train p s (A ++ B) = .ok { s with trained := some tAB } ∧
      ∀ l, NewsNoun.lFrequency tAB l = NewsNoun.lFrequency tA l + NewsNoun.lFrequency tB l := by
  obtain ⟨tA, eA, gA, _⟩ := C77_train p s A hA
  obtain ⟨tB, eB, gB, _⟩ := C77_train p s B hB
  obtain ⟨tAB, eAB, gAB, _⟩ := C77_train p s (A ++ B) (by simp [hA])
  refine ⟨tA, tB, tAB, eA, eB, eAB, fun l => ?_⟩
  rw [gA l, gB l, gAB l]
  unfold NewsNounSpec.freq NewsNounSpec.rests NewsNounSpec.corpusOf
  rw [List.length_map, List.length_map, List.length_map, List.flatMap_append, List.filter_append, List.length_append]
  push_cast
  rfl

/-- **C106** `LRGraph` built from sentences: the pairs of the whole corpus are the pairs of either part, and where both parts have a pair the
    counts add. -/
theorem C106_lrgraph (A B : List Str) (hA : A ≠ []) (hB : B ≠ []) (lMax rMax : Int) (sA sB sAB : LR.State)
    (eA : LR.construct [] A lMax rMax = .ok sA) (eB : LR.construct [] B lMax rMax = .ok sB) (eAB : LR.construct [] (A ++ B) lMax rMax = .ok sAB)
    (l r : Str) (n : Int) :
    (r, n) ∈ LR.getR sAB l 0 ↔
      (∃ a b, (r, a) ∈ LR.getR sA l 0 ∧ (r, b) ∈ LR.getR sB l 0 ∧ n = a + b) ∨
      ((r, n) ∈ LR.getR sA l 0 ∧ ∀ b, (r, b) ∉ LR.getR sB l 0) ∨
      ((r, n) ∈ LR.getR sB l 0 ∧ ∀ a, (r, a) ∉ LR.getR sA l 0) := by
  have hA' := C26_sents_exact A hA lMax rMax sA eA l r
  have hB' := C26_sents_exact B hB lMax rMax sB eB l r
  rw [C26_sents_exact (A ++ B) (by simp [hA]) lMax rMax sAB eAB l r n]
  rw [List.flatMap_append, List.mem_append, List.count_append]
  rw [hA', hB']
  have q1 : (∃ a b, (r, a) ∈ LR.getR sA l 0 ∧ (r, b) ∈ LR.getR sB l 0 ∧ n = a + b) ↔
      (∃ a b, (SplitOf lMax rMax (l ++ r) l r ∧ l ++ r ∈ A.flatMap splitWs ∧ a = (l.length : Int) * ((A.flatMap splitWs).count (l ++ r) : Int)) ∧
        (SplitOf lMax rMax (l ++ r) l r ∧ l ++ r ∈ B.flatMap splitWs ∧ b = (l.length : Int) * ((B.flatMap splitWs).count (l ++ r) : Int)) ∧ n = a + b) :=
    exists_congr (fun a => exists_congr (fun b => by rw [hA', hB']))
  have q2 : (∀ b, (r, b) ∉ LR.getR sB l 0) ↔ ∀ b, ¬ (SplitOf lMax rMax (l ++ r) l r ∧ l ++ r ∈ B.flatMap splitWs ∧ b = (l.length : Int) * ((B.flatMap splitWs).count (l ++ r) : Int)) :=
    forall_congr' (fun b => by rw [hB'])
  have q3 : (∀ b, (r, b) ∉ LR.getR sA l 0) ↔ ∀ b, ¬ (SplitOf lMax rMax (l ++ r) l r ∧ l ++ r ∈ A.flatMap splitWs ∧ b = (l.length : Int) * ((A.flatMap splitWs).count (l ++ r) : Int)) :=
    forall_congr' (fun b => by rw [hA'])
  rw [q1, q2, q3]
  obtain ⟨x, hx⟩ : ∃ x, x = (List.flatMap splitWs A).count (l ++ r) := ⟨_, rfl⟩
  obtain ⟨y, hy⟩ : ∃ y, y = (List.flatMap splitWs B).count (l ++ r) := ⟨_, rfl⟩
  have mx : l ++ r ∈ List.flatMap splitWs A ↔ 0 < x := by rw [hx, List.count_pos_iff]
  have my : l ++ r ∈ List.flatMap splitWs B ↔ 0 < y := by rw [hy, List.count_pos_iff]
  rw [← hx, ← hy, mx, my, Int.natCast_add]
  constructor
  · rintro ⟨hs, hm, hn⟩
    by_cases h1 : 0 < x
    · by_cases h2 : 0 < y
      · exact .inl ⟨_, _, ⟨hs, h1, rfl⟩, ⟨hs, h2, rfl⟩, by rw [hn, Int.mul_add]⟩
      · have : y = 0 := by omega
        exact .inr (.inl ⟨⟨hs, h1, by rw [hn, this]; simp⟩, fun b hb => h2 hb.2.1⟩)
    · have : x = 0 := by omega
      rcases hm with hm | hm
      · exact absurd hm h1
      · exact .inr (.inr ⟨⟨hs, hm, by rw [hn, this]; simp⟩, fun b hb => h1 hb.2.1⟩)
  · rintro (⟨a, b, ⟨hs, h1, rfl⟩, ⟨_, _, rfl⟩, rfl⟩ | ⟨⟨hs, h1, rfl⟩, hno⟩ | ⟨⟨hs, h1, rfl⟩, hno⟩)
    · exact ⟨hs, .inl h1, by rw [Int.mul_add]⟩
    · have : ¬ 0 < y := fun h => hno _ ⟨hs, h, rfl⟩
      have : y = 0 := by omega
      exact ⟨hs, .inl h1, by rw [this]; simp⟩
    · have : ¬ 0 < x := fun h => hno _ ⟨hs, h, rfl⟩
      have : x = 0 := by omega
      exact ⟨hs, .inr h1, by rw [this]; simp⟩

/-! ### concrete cases -/

private def two : EC.Params := { minCount := 2 }
private def one : EC.Params := { minCount := 1 }
private def ask (p : EC.Params) (sents : List Str) (e : Str) : Int :=
  match EC.construct p (some sents) with | .ok s => EC.getitem s e | .error _ => -1

/-- with a minimum of 2 both halves drop the word and the whole counts 2 (= 2 * (min_count - 1) more): the bound is reached -/
example : ask two ["가 나".toList] "가".toList = 0 ∧ ask two ["가".toList] "가".toList = 0 ∧ ask two ["가 나".toList, "가".toList] "가".toList = 2 := by
  decide +kernel
example : ask one ["가 나 가".toList] "가".toList = 2 ∧ ask one ["가".toList] "가".toList = 1 ∧ ask one ["가 나 가".toList, "가".toList] "가".toList = 3 := by
  decide +kernel

private def wone : WX.Params := { minFrequency := 1 }
private def wtwo : WX.Params := { minFrequency := 2 }
private def parts (p : WX.Params) (A B : List Str) (w : Str) : (Nat × Nat) × (Nat × Nat) :=
  match WX.train p {} A 0 false with
  | .error _ => ((0, 0), (0, 0))
  | .ok s1 => match WX.train p s1 B 0 true, WX.train p {} (A ++ B) 0 false with
    | .ok s2, .ok s => (WX.frequency s2 w, WX.frequency s w)
    | _, _ => ((0, 0), (0, 0))

/-- the same corpus in one training and in two: equal with a minimum of 1, less with a minimum of 2 -/
example : parts wone ["가나".toList] ["가나 가다".toList] "가".toList = ((3, 0), (3, 0)) ∧
    parts wtwo ["가나".toList] ["가나 가다".toList] "가".toList = ((2, 0), (3, 0)) := by decide +kernel

private def graphOf (sents : List Str) (l : Str) : List (Str × Int) :=
  match LR.construct [] sents 10 9 with | .ok s => LR.getR s l 0 | .error _ => []

example : graphOf ["가나".toList] "가".toList = [("나".toList, 1)] ∧ graphOf ["가나 가다".toList] "가".toList = [("나".toList, 1), ("다".toList, 1)] ∧
    graphOf ["가나".toList, "가나 가다".toList] "가".toList = [("나".toList, 2), ("다".toList, 1)] := by decide +kernel

end Props
