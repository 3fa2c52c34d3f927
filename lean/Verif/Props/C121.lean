import Verif.Props.C09_C10
import Verif.Props.C03_C04
import Verif.Props.C21_C23
import Verif.Props.C30_C32
import Verif.Props.C33
import Verif.Props.C13
import Verif.Props.C14_C15
import Verif.Props.C16_C17
/-! C121: how large the results can get. -/
namespace Props
open Py Spec

/-! ### tokens -/

theorem parts_length {α : Type} (ts : List (List α)) (h : ∀ t ∈ ts, t ≠ []) : ts.length ≤ ts.flatten.length := by
  induction ts with
  | nil => simp
  | cons t ts ih =>
    have h1 := ih (fun x hx => h x (by simp [hx]))
    have h2 : 0 < t.length := List.length_pos_iff.2 (h t (by simp))
    rw [List.flatten_cons, List.length_append, List.length_cons]
    omega

/-- C121: RegexTokenizer, MaxScoreTokenizer and LTokenizer (flattened) return at most as many tokens as the text has
    characters that are no whitespace, and their tokens together have exactly that many characters. -/
theorem C121_tokens (s : Str) (isDigit : Char → Bool) (scores : Dict Str Rat) (maxLength : Nat) (hm : 2 ≤ maxLength) (ds tol : Rat) :
    let visible := s.filter (fun c => c.toNat ∉ whitespace)
    ((RegexTok.tokenize isDigit s).length ≤ visible.length ∧ ((RegexTok.tokenize isDigit s).map List.length).sum = visible.length) ∧
    (∃ ts, MaxScore.tokenize scores maxLength ds s = .ok ts ∧ ts.length ≤ visible.length ∧ (ts.map List.length).sum = visible.length) ∧
    (∃ ts, LTok.tokenize scores ds tol s = .ok ts ∧ ts.length ≤ visible.length ∧ (ts.map List.length).sum = visible.length) := by
  have key : ∀ ts : List Str, (∀ t ∈ ts, t ≠ []) → ts.flatten = s.filter (fun c => c.toNat ∉ whitespace) →
      ts.length ≤ (s.filter (fun c => c.toNat ∉ whitespace)).length ∧
      (ts.map List.length).sum = (s.filter (fun c => c.toNat ∉ whitespace)).length := by
    intro ts h1 h2
    rw [← h2]
    exact ⟨parts_length ts h1, by rw [List.length_flatten]⟩
  dsimp only
  refine ⟨?_, ?_, ?_⟩
  · obtain ⟨h1, h2⟩ := C16_regex_lossless isDigit s
    exact key _ (fun t ht => (h2 t ht).1) h1
  · obtain ⟨ts, h1, h2, h3⟩ := C14_lossless scores maxLength hm ds s
    exact ⟨ts, h1, key ts h2 h3⟩
  · obtain ⟨_, ts, _, h1, _, h2, h3⟩ := C13_flat_lossless scores ds tol s
    exact ⟨ts, h1, key ts h2 h3⟩

/-! ### normalisers -/

private theorem blankJoin_cons_le (w : Str) (ws : List Str) : (blankJoin (w :: ws)).length ≤ w.length + 1 + (blankJoin ws).length := by
  cases ws with
  | nil => simp [blankJoin]
  | cons v ws => simp [blankJoin]; omega

private theorem runsGo_length (p : Char → Bool) (s : Str) : ∀ cur : Str, (blankJoin (runsGo p cur s)).length ≤ cur.length + s.length := by
  induction s with
  | nil => intro cur; unfold runsGo; split <;> simp [blankJoin]
  | cons c s ih =>
    intro cur
    unfold runsGo
    split
    · have := ih (cur ++ [c]); simp at this ⊢; omega
    · split
      · have := ih []; simp at this ⊢; omega
      · have h1 := blankJoin_cons_le cur (runsGo p [] s)
        have h2 := ih []
        simp at h1 h2 ⊢; omega

private theorem runs_length (p : Char → Bool) (s : Str) : (blankJoin (runs p s)).length ≤ s.length := by
  have := runsGo_length p s []; simpa [runs] using this

private theorem repeat_length (isWord : Char → Bool) (k n : Nat) (s : Str) :
    k * (Hangle.repeatSub isWord k n s).length ≤ max k n * s.length := by
  obtain ⟨rl, h1, rfl⟩ := Hangle.exists_runs s
  rw [Hangle.repeatSub_expand isWord k n rl h1]
  clear h1
  induction rl with
  | nil => simp [expand]
  | cons e rl ih =>
    simp only [expand, List.map_cons, List.flatMap_cons, List.length_append, List.length_replicate] at ih ⊢
    rw [Nat.mul_add, Nat.mul_add]
    refine Nat.add_le_add ?_ ih
    unfold Hangle.shorten
    split
    · rename_i h
      have h2 : k ≤ e.2 := by simp at h; exact h.2
      calc k * n ≤ e.2 * max k n := Nat.mul_le_mul h2 (le_max_right _ _)
        _ = _ := Nat.mul_comm _ _
    · exact Nat.mul_le_mul_right _ (le_max_left _ _)

private theorem mapped_length (f : Str → Str) (k M : Nat) (hk : k ≤ M) (hf : ∀ w, k * (f w).length ≤ M * w.length) (ws : List Str) :
    k * (blankJoin (ws.map f)).length ≤ M * (blankJoin ws).length := by
  induction ws with
  | nil => simp [blankJoin]
  | cons w ws ih =>
    cases ws with
    | nil => simpa [blankJoin] using hf w
    | cons v ws =>
      have e : ∀ (a b : Str) (l : List Str), (blankJoin (a :: b :: l)).length = a.length + (1 + (blankJoin (b :: l)).length) := by
        intro a b l; simp [blankJoin]; omega
      simp only [List.map_cons] at ih ⊢
      rw [e, e, Nat.mul_add, Nat.mul_add, Nat.mul_add, Nat.mul_add]
      have := hf w
      omega

/-- C121: only_hangle, only_hangle_number, only_text and normalize without repeat removal never lengthen the text;
    with repeat removal to `n` characters, normalize and repeat_normalize (which shorten runs of 3 or more) give at
    most `max(3, n)/3` times the length, and hangle.normalize (runs of 4 or more) at most `max(4, n)/4` times: no
    lengthening as long as `n` is at most 3 (4). -/
theorem C121_normalize (isWord : Char → Bool) (doc : Str) (a n p s : Bool) (k : Nat) (r : Char → Bool) :
    (Normalizer.onlyHangle doc).length ≤ doc.length ∧ (Normalizer.onlyHangleNumber doc).length ≤ doc.length ∧
    (Normalizer.onlyText doc).length ≤ doc.length ∧
    3 * (Normalizer.normalize isWord doc a n p s k).length ≤ max 3 k * doc.length ∧
    3 * (Normalizer.repeatNormalize isWord doc k).length ≤ max 3 k * doc.length ∧
    4 * (Hangle.normalize isWord doc a n p k r).length ≤ max 4 k * doc.length := by
  obtain ⟨h1, h2, h3⟩ := C09_only doc
  refine ⟨by rw [h1]; exact runs_length _ _, by rw [h2]; exact runs_length _ _, by rw [h3]; exact runs_length _ _, ?_, ?_, ?_⟩
  · by_cases hk : 0 < k
    · rw [C09_normalize_repeat isWord doc a n p s k hk]
      exact (mapped_length _ 3 (max 3 k) (le_max_left _ _) (repeat_length isWord 3 k) _).trans
        (Nat.mul_le_mul_left _ (runs_length _ _))
    · have : k = 0 := by omega
      subst this
      rw [C09_normalize_runs]
      exact Nat.mul_le_mul (le_max_left _ _) (runs_length _ _)
  · by_cases hk : 0 < k
    · obtain ⟨rl, hr, rfl⟩ := Hangle.exists_runs doc
      have e := repeat_length isWord 3 k (expand rl)
      refine (Nat.mul_le_mul_left 3 ?_).trans e
      simp only [Normalizer.repeatNormalize, gt_iff_lt, hk, if_true]
      rw [strip_collapse, splitWs_pieces, join_eq_blankJoin]
      exact runs_length _ _
    · have : k = 0 := by omega
      subst this
      rw [C10_zero]
      exact Nat.mul_le_mul (le_max_left _ _) (runs_length _ _)
  · by_cases hk : k > 0
    · have : Hangle.normalize isWord doc a n p k r = Hangle.normalize isWord (Hangle.repeatSub isWord 4 k doc) a n p 0 r := by
        simp [Hangle.normalize, hk]
      rw [this, C04_normalize_runs]
      exact (Nat.mul_le_mul_left 4 (runs_length _ _)).trans (repeat_length isWord 4 k doc)
    · have : k = 0 := by omega
      subst this
      rw [C04_normalize_runs]
      exact Nat.mul_le_mul (le_max_left _ _) (runs_length _ _)

/-- C121: and the factor is reached: "removing" repeats can lengthen the text -/
theorem C121_longer_violation :
    Normalizer.repeatNormalize (fun c => decide (c ≠ ' ')) "ㅋㅋㅋ".toList 6 = "ㅋㅋㅋㅋㅋㅋ".toList ∧
    Normalizer.normalize (fun c => decide (c ≠ ' ')) "ㅋㅋㅋ".toList false false false false 6 = "ㅋㅋㅋㅋㅋㅋ".toList := by
  refine ⟨?_, ?_⟩ <;> decide +kernel

/-! ### tables -/

/-- double counting -/
private theorem sum_countP {α β : Type} (P : α → β → Bool) (ks : List α) (ts : List β) :
    (ks.map (fun k => ts.countP (P k))).sum = (ts.map (fun t => ks.countP (fun k => P k t))).sum := by
  induction ts with
  | nil => simp
  | cons t ts ih =>
    simp only [List.countP_cons, List.map_cons, List.sum_cons]
    rw [List.sum_map_add, ih, Nat.add_comm]
    congr 1
    clear ih
    induction ks with
    | nil => rfl
    | cons k ks ih => rw [List.map_cons, List.sum_cons, ih, List.countP_cons]; omega

private theorem mul_length_le {α : Type} (f : α → Nat) (m : Nat) (ks : List α) (h : ∀ k ∈ ks, m ≤ f k) : m * ks.length ≤ (ks.map f).sum := by
  induction ks with
  | nil => simp
  | cons k ks ih =>
    have h1 := ih (fun x hx => h x (by simp [hx])); have h2 := h k (by simp)
    rw [List.length_cons, List.map_cons, List.sum_cons, Nat.mul_add]; omega

private theorem sum_le_of_le {β : Type} (f g : β → Nat) (ts : List β) (h : ∀ t ∈ ts, f t ≤ g t) : (ts.map f).sum ≤ (ts.map g).sum := by
  induction ts with
  | nil => simp
  | cons t ts ih =>
    have h1 := ih (fun x hx => h x (by simp [hx])); have h2 := h t (by simp)
    simp only [List.map_cons, List.sum_cons]; omega

private theorem count_le_one {α : Type} [DecidableEq α] {ks : List α} (h : ks.Nodup) (t : α) : ks.countP (fun k => decide (t = k)) ≤ 1 := by
  have := List.nodup_iff_count_le_one.1 h t
  rw [List.count] at this
  refine le_trans (le_of_eq ?_) this
  apply List.countP_congr
  intro x _
  simp only [decide_eq_true_eq, beq_iff_eq]
  exact eq_comm

/-- C121: the eojeols an EojeolCounter keeps, times `min_count` (at least 1), are no more than the eojeols of the corpus:
    for any list of different eojeols with a positive count. -/
theorem C121_eojeols (p : EC.Params) (sents : List Str) (s : EC.State) (hs : EC.construct p (some sents) = .ok s)
    (hno : NoCheckpoints p sents.length) (ks : List Str) (hk : ks.Nodup) (hp : ∀ e ∈ ks, 0 < EC.getitem s e) :
    max 1 p.minCount.toNat * ks.length ≤ (eojeolsOf p.preprocess sents).length := by
  have hne : sents ≠ [] := by rintro rfl; simp [EC.construct, EC.counting, EC.checkCorpus, bind, Except.bind] at hs
  obtain ⟨s', hs', _, hc, _⟩ := C21_exact p sents hne hno
  rw [hs] at hs'; cases hs'
  have h1 : ∀ e ∈ ks, max 1 p.minCount.toNat ≤ (eojeolsOf p.preprocess sents).countP (fun t => decide (t = e)) := by
    intro e he
    have := hp e he
    rw [hc] at this
    split at this
    · rename_i hh
      have e1 : (eojeolsOf p.preprocess sents).count e = (eojeolsOf p.preprocess sents).countP (fun t => decide (t = e)) := by
        rw [List.count]; apply List.countP_congr; intro x _; simp
      rw [e1] at this hh
      omega
    · omega
  refine (mul_length_le _ _ ks h1).trans ?_
  rw [sum_countP (fun (k t : Str) => decide (t = k))]
  refine (sum_le_of_le _ (fun _ => 1) _ (fun t _ => count_le_one hk t)).trans ?_
  simp

/-- different beginnings of one token of length at most `m`: no more than `m`, and no more than the token is long -/
private theorem prefixes_le {ks : List Str} (hk : ks.Nodup) (P : Str → Bool) (b : Nat) (t : Str)
    (hP : ∀ w, P w = true → w ≠ [] ∧ w.length ≤ b ∧ w <+: t) : ks.countP P ≤ b := by
  rw [List.countP_eq_length_filter]
  have h1 : ((ks.filter P).map List.length).Nodup := by
    rw [List.nodup_map_iff_inj_on (hk.filter _)]
    intro x hx y hy hxy
    obtain ⟨_, _, h1⟩ := hP x (List.mem_filter.1 hx).2
    obtain ⟨_, _, h2⟩ := hP y (List.mem_filter.1 hy).2
    rw [List.prefix_iff_eq_take.1 h1, List.prefix_iff_eq_take.1 h2, hxy]
  have h2 : (ks.filter P).map List.length ⊆ List.range' 1 b := by
    intro n hn
    obtain ⟨w, hw, rfl⟩ := List.mem_map.1 hn
    obtain ⟨a1, a2, _⟩ := hP w (List.mem_filter.1 hw).2
    have := List.length_pos_iff.2 a1
    rw [List.mem_range'_1]; omega
  have h3 := (List.subperm_of_subset h1 h2).length_le
  simpa using h3

private theorem suffixes_le {ks : List Str} (hk : ks.Nodup) (P : Str → Bool) (b : Nat) (t : Str)
    (hP : ∀ w, P w = true → w ≠ [] ∧ w.length ≤ b ∧ w <:+ t) : ks.countP P ≤ b := by
  rw [List.countP_eq_length_filter]
  have h1 : ((ks.filter P).map List.length).Nodup := by
    rw [List.nodup_map_iff_inj_on (hk.filter _)]
    intro x hx y hy hxy
    obtain ⟨_, _, h1⟩ := hP x (List.mem_filter.1 hx).2
    obtain ⟨_, _, h2⟩ := hP y (List.mem_filter.1 hy).2
    rw [List.suffix_iff_eq_drop.1 h1, List.suffix_iff_eq_drop.1 h2, hxy]
  have h2 : (ks.filter P).map List.length ⊆ List.range' 1 b := by
    intro n hn
    obtain ⟨w, hw, rfl⟩ := List.mem_map.1 hn
    obtain ⟨a1, a2, _⟩ := hP w (List.mem_filter.1 hw).2
    have := List.length_pos_iff.2 a1
    rw [List.mem_range'_1]; omega
  have h3 := (List.subperm_of_subset h1 h2).length_le
  simpa using h3

/-- C121: WordExtractor keeps at most `max_left_length + 1` beginnings and at most `max_right_length` ends per token (and
    never more than the token has characters, for ends one less), divided by `min_frequency` (at least 1): for any list
    of different words with a positive left (right) frequency. -/
theorem C121_words (p : WX.Params) (s0 : WX.State) (sents : List Str) (k : Int) (c : Bool) (hne : sents ≠ []) (hk : k ≤ 0)
    (hfresh : c = false ∨ s0 = {}) :
    ∃ s, WX.train p s0 sents k c = .ok s ∧ ∀ ks : List Str, ks.Nodup →
      ((∀ w ∈ ks, 0 < (WX.frequency s w).1) →
        max 1 p.minFrequency.toNat * ks.length ≤ ((tokensOf sents).map (fun t => min t.length (p.maxLeft + 1).toNat)).sum) ∧
      ((∀ w ∈ ks, 0 < (WX.frequency s w).2) →
        max 1 p.minFrequency.toNat * ks.length ≤ ((tokensOf sents).map (fun t => min (t.length - 1) p.maxRight.toNat)).sum) := by
  obtain ⟨s, hs, h⟩ := C30_counts p s0 sents k c hne hk hfresh
  refine ⟨s, hs, fun ks hnd => ⟨fun hp => ?_, fun hp => ?_⟩⟩
  · have h1 : ∀ w ∈ ks, max 1 p.minFrequency.toNat ≤ prefixCount p.maxLeft (tokensOf sents) w := by
      intro w hw
      have := hp w hw
      rw [(h w).2.2] at this
      simp only [Dict.getD, (h w).1] at this
      split at this
      · omega
      · simp at this
    refine (mul_length_le _ _ ks h1).trans ?_
    unfold prefixCount
    rw [sum_countP (fun (w t : Str) => decide (2 ≤ t.length ∧ w ≠ [] ∧ (w.length : Int) ≤ p.maxLeft + 1 ∧ w <+: t))]
    refine sum_le_of_le _ _ _ (fun t _ => prefixes_le hnd _ _ t (fun w hw => ?_))
    simp only [decide_eq_true_eq] at hw
    have := hw.2.2.2.length_le
    exact ⟨hw.2.1, by omega, hw.2.2.2⟩
  · have h1 : ∀ w ∈ ks, max 1 p.minFrequency.toNat ≤ suffixCount p.maxRight (tokensOf sents) w := by
      intro w hw
      have := hp w hw
      rw [(h w).2.2] at this
      simp only [Dict.getD, (h w).2.1] at this
      split at this
      · omega
      · simp at this
    refine (mul_length_le _ _ ks h1).trans ?_
    unfold suffixCount
    rw [sum_countP (fun (w t : Str) => decide (2 ≤ t.length ∧ w ≠ [] ∧ (w.length : Int) ≤ p.maxRight ∧ w <:+ t ∧ w.length < t.length))]
    refine sum_le_of_le _ _ _ (fun t _ => suffixes_le hnd _ _ t (fun w hw => ?_))
    simp only [decide_eq_true_eq] at hw
    exact ⟨hw.2.1, by omega, hw.2.2.2.1⟩

/-- C121: the pairs Bigram reports by frequency, times `min_frequency` (at least 1), are no more than the neighbouring
    pairs of tokens in the corpus. -/
theorem C121_pairs (p : BG.Params) (sents : List Str) (hcp : p.checkpoint ≤ 0 ∨ (sents.length : Int) ≤ p.checkpoint) (topk threshold : Int) :
    ∃ d, BG.extractByFrequency (BG.train p sents).1 topk threshold = .ok d ∧ ∀ ks : List (Str × Str), ks.Nodup →
      (∀ b ∈ ks, b ∈ Dict.keys d) →
      max 1 (max p.minFrequency threshold).toNat * ks.length ≤ (sents.map (fun s => (p.tokenizer s).length - 1)).sum := by
  obtain ⟨d, hd, h⟩ := C33_counts p sents hcp topk threshold
  refine ⟨d, hd, fun ks hnd hm => ?_⟩
  have h1 : ∀ b ∈ ks, max 1 (max p.minFrequency threshold).toNat ≤ bigramCount p sents b := by
    intro b hb
    have := hm b hb
    rw [← Dict.isSome_get?_iff, h] at this
    split at this
    · omega
    · simp at this
  refine (mul_length_le _ _ ks h1).trans ?_
  have h2 : ∀ words : List Str, (ks.map (fun b => adjacent b words)).sum ≤ words.length - 1 := by
    intro words
    unfold adjacent
    rw [sum_countP (fun (b : Str × Str) (i : Nat) => decide (words[i]? = some b.1 ∧ words[i + 1]? = some b.2))]
    have h3 : ∀ i ∈ List.range words.length, ks.countP (fun b => decide (words[i]? = some b.1 ∧ words[i + 1]? = some b.2)) ≤
        if i + 1 < words.length then 1 else 0 := by
      intro i _
      by_cases hi : i + 1 < words.length
      · rw [if_pos hi]
        refine le_trans (le_of_eq ?_) (count_le_one hnd (words[i], words[i + 1]))
        apply List.countP_congr
        intro b _
        have h0 : i < words.length := by omega
        rw [List.getElem?_eq_getElem h0, List.getElem?_eq_getElem hi]
        simp [Prod.ext_iff]
      · rw [if_neg hi, Nat.le_zero, List.countP_eq_zero]
        intro b _
        rw [List.getElem?_eq_none (by omega : words.length ≤ i + 1)]
        simp
    refine (sum_le_of_le _ _ _ h3).trans ?_
    have h4 : ∀ n m, ((List.range n).map (fun i => if i + 1 < m then 1 else 0)).sum ≤ m - 1 ∧
        ((List.range n).map (fun i => if i + 1 < m then 1 else 0)).sum ≤ n := by
      intro n m
      induction n with
      | zero => simp
      | succ n ih => rw [List.range_succ, List.map_append, List.sum_append]; simp only [List.map_cons, List.map_nil, List.sum_cons, List.sum_nil]; split <;> omega
    exact (h4 _ _).1
  clear h h1 hm hd hcp
  unfold bigramCount
  induction sents with
  | nil => simp
  | cons s sents ih =>
    simp only [List.map_cons, List.sum_cons]
    rw [List.sum_map_add]
    exact Nat.add_le_add (h2 _) ih

/-- a case with something in it: three eojeols counted twice or more, of seven -/
example : ∃ s, EC.construct { minCount := 2 } (some ["a b b".toList, "a c c d".toList]) = .ok s ∧
    (∀ e ∈ ["a".toList, "b".toList, "c".toList], 0 < EC.getitem s e) := by
  refine ⟨_, rfl, ?_⟩; decide +kernel

end Props
