import Verif.Model.WordContext
import Verif.Py.Enum
import Mathlib.Tactic.Ring
import Mathlib.Tactic.Linarith
/-! C37: the word-context matrix. -/
namespace Props
open Py WC

/-- number of positions where `b` stands exactly `d` words after `a` -/
def apart (d : Nat) (a b : Str) (words : List Str) : Nat :=
  (List.range words.length).countP (fun i => decide (words[i]? = some a ∧ words[i + d]? = some b))

/-- the co-occurrence weight of two words in one tokenised sentence: over the distances `d = 1 .. windows`, the number of times they
    are `d` apart in either order, weighted 1 or `(windows + 1 - d) / windows` -/
def coWeight (windows : Nat) (dynamic : Bool) (words : List Str) (a b : Str) : Rat :=
  ((List.range windows).map (fun k : Nat =>
    (if dynamic then ((windows : Rat) - k) / windows else 1) * ((apart (k + 1) a b words + apart (k + 1) b a words : Nat) : Rat))).sum

/-- ... in the corpus -/
def coWeights (p : WC.Params) (sents : List Str) (a b : Str) : Rat :=
  (sents.map (fun s => coWeight p.windows.toNat p.dynamicWeight (p.tokenizer s) a b)).sum

/-- the cell of a sparse matrix given by triples (values of repeated cells add up) -/
def cell (x : List (Nat × Nat × Rat)) (i j : Nat) : Rat := ((x.filter (fun e => decide (e.1 = i ∧ e.2.1 = j))).map (·.2.2)).sum

/-- the number of occurrences of a word in the corpus -/
def wordFreq (p : WC.Params) (sents : List Str) (w : Str) : Nat := (sents.map (fun s => (p.tokenizer s).countP (fun x => decide (x = w)))).sum

/-! ### the counter -/

private theorem getD_wordCounter (p : WC.Params) (sents : List Str) (w : Str) : Dict.getD (wordCounter p sents) w 0 = wordFreq p sents w := by
  unfold wordCounter wordFreq
  have : ∀ (ss : List Str) (d : Dict Str Nat), Dict.getD (ss.foldl (fun d sent => (p.tokenizer sent).foldl (fun d w => Dict.add d w 1) d) d) w 0 =
      Dict.getD d w 0 + (ss.map (fun s => (p.tokenizer s).countP (fun x => decide (x = w)))).sum := by
    intro ss
    induction ss with
    | nil => intro d; simp
    | cons s ss ih => intro d; rw [List.foldl_cons, ih, Dict.getD_foldl_inc, List.map_cons, List.sum_cons]; omega
  rw [this]; simp [Dict.getD]

private theorem wf_wordCounter (p : WC.Params) (sents : List Str) : (wordCounter p sents).WF := by
  unfold wordCounter
  have : ∀ (ss : List Str) (d : Dict Str Nat), d.WF → Dict.WF (ss.foldl (fun d sent => (p.tokenizer sent).foldl (fun d w => Dict.add d w 1) d) d) := by
    intro ss
    induction ss with
    | nil => intro d h; exact h
    | cons s ss ih => intro d h; exact ih _ (Dict.WF.foldl_add _ id (fun _ => 1) h)
  exact this sents [] Dict.wf_nil

private theorem mem_keys_wordCounter (p : WC.Params) (sents : List Str) (w : Str) :
    w ∈ Dict.keys (wordCounter p sents) ↔ 0 < wordFreq p sents w := by
  unfold wordCounter wordFreq
  have : ∀ (ss : List Str) (d : Dict Str Nat), w ∈ Dict.keys (ss.foldl (fun d sent => (p.tokenizer sent).foldl (fun d w => Dict.add d w 1) d) d) ↔
      w ∈ Dict.keys d ∨ 0 < (ss.map (fun s => (p.tokenizer s).countP (fun x => decide (x = w)))).sum := by
    intro ss
    induction ss with
    | nil => intro d; simp
    | cons s ss ih =>
      intro d
      have h := Dict.mem_keys_foldl_add (p.tokenizer s) id (fun _ => 1) d w
      simp only [id] at h
      rw [List.foldl_cons, ih, h, List.map_cons, List.sum_cons]
      have h2 : (∃ x ∈ p.tokenizer s, x = w) ↔ 0 < (p.tokenizer s).countP (fun x => decide (x = w)) := by
        simp [List.countP_pos_iff]
      rw [h2]
      constructor
      · rintro ((h | h) | h)
        · exact Or.inl h
        · exact Or.inr (by omega)
        · exact Or.inr (by omega)
      · rintro (h | h)
        · exact Or.inl (Or.inl h)
        · rcases Nat.eq_zero_or_pos ((p.tokenizer s).countP (fun x => decide (x = w))) with h0 | h0
          · exact Or.inr (by omega)
          · exact Or.inl (Or.inr h0)
  rw [this]; simp

private theorem mem_kept (p : WC.Params) (sents : List Str) (w : Str) :
    w ∈ kept p sents ↔ 0 < wordFreq p sents w ∧ p.minTf ≤ wordFreq p sents w := by
  unfold kept
  have h1 := getD_wordCounter p sents w
  have h2 := mem_keys_wordCounter p sents w
  have hwf := wf_wordCounter p sents
  rw [← h2, List.mem_map]
  constructor
  · rintro ⟨⟨k, n⟩, he, rfl⟩
    obtain ⟨he1, he2⟩ := List.mem_filter.1 he
    simp only [Dict.getD, Dict.get?_of_mem hwf he1, Option.getD_some] at h1
    refine ⟨List.mem_map.2 ⟨_, he1, rfl⟩, ?_⟩
    simp only [decide_eq_true_eq] at he2
    simp only [← h1]; exact he2
  · rintro ⟨hk, hm⟩
    obtain ⟨⟨k, n⟩, he, rfl⟩ := List.mem_map.1 hk
    simp only [Dict.getD, Dict.get?_of_mem hwf he, Option.getD_some] at h1
    refine ⟨_, List.mem_filter.2 ⟨he, ?_⟩, rfl⟩
    simp only [← h1] at hm
    simpa using hm

private theorem nodup_kept (p : WC.Params) (sents : List Str) : (kept p sents).Nodup := (wf_wordCounter p sents).filter _

/-- the vocabulary, for any enumeration `order` of the kept set -/
private theorem vocab_facts (p : WC.Params) (sents order : List Str) (ho : order.Perm (kept p sents)) :
    (idx2vocab (vocab2idx p sents order)).Nodup ∧ (idx2vocab (vocab2idx p sents order)).Perm (kept p sents) ∧
    (idx2vocab (vocab2idx p sents order)).Pairwise (fun a b => wordFreq p sents b ≤ wordFreq p sents a) ∧
    (∀ t i, Dict.get? (vocab2idx p sents order) t = some i ↔ (idx2vocab (vocab2idx p sents order))[i]? = some t) := by
  unfold vocab2idx idx2vocab
  generalize hl : sorted (fun a b => decide (Dict.getD (wordCounter p sents) b 0 ≤ Dict.getD (wordCounter p sents) a 0)) order = l
  have hp : l.Perm order := by rw [← hl]; exact sorted_perm _ _
  have hnd : l.Nodup := (hp.trans ho).nodup_iff.2 (nodup_kept p sents)
  obtain ⟨c1, c2, c3⟩ := coding_enum l hnd
  rw [c1, c2]
  refine ⟨hnd, hp.trans ho, ?_, c3⟩
  have htp : TotalPre (fun a b => decide (Dict.getD (wordCounter p sents) b 0 ≤ Dict.getD (wordCounter p sents) a 0)) := by
    refine ⟨fun a b c h1 h2 => ?_, fun a b => ?_⟩
    · simp only [decide_eq_true_eq] at *; omega
    · simp only [decide_eq_true_eq] at *; omega
  rw [← hl]
  exact (pairwise_sorted htp order).imp (fun h => by
    rw [decide_eq_true_iff, getD_wordCounter, getD_wordCounter] at h; exact h)

/-! ### sums of increments -/

/-- the sum of the increments of key `k` -/
private def total (k : Str × Str) (incs : List ((Str × Str) × Rat)) : Rat := ((incs.filter (fun e => decide (e.1 = k))).map (·.2)).sum

private theorem total_nil (k : Str × Str) : total k [] = 0 := rfl
private theorem total_append (k : Str × Str) (a b : List ((Str × Str) × Rat)) : total k (a ++ b) = total k a + total k b := by
  simp [total, List.filter_append]
private theorem total_flatMap {α : Type} (k : Str × Str) (l : List α) (f : α → List ((Str × Str) × Rat)) :
    total k (l.flatMap f) = (l.map (fun x => total k (f x))).sum := by
  induction l with
  | nil => rfl
  | cons x l ih => rw [List.flatMap_cons, total_append, ih, List.map_cons, List.sum_cons]

private theorem getD_bump (incs : List ((Str × Str) × Rat)) (d : Dict (Str × Str) Rat) (k : Str × Str) :
    Dict.getD (incs.foldl bump d) k 0 = Dict.getD d k 0 + total k incs := by
  induction incs generalizing d with
  | nil => simp [total]
  | cons e es ih =>
    rw [List.foldl_cons, ih]
    have : total k (e :: es) = (if e.1 = k then e.2 else 0) + total k es := by
      unfold total
      by_cases h : e.1 = k <;> simp [h]
    rw [this]
    simp only [Dict.getD, bump, Dict.get?_set]
    by_cases h : e.1 = k
    · subst h; simp; ring
    · simp [h]

private theorem keys_bump (incs : List ((Str × Str) × Rat)) (d : Dict (Str × Str) Rat) (k : Str × Str) :
    k ∈ Dict.keys (incs.foldl bump d) ↔ k ∈ Dict.keys d ∨ ∃ e ∈ incs, e.1 = k := by
  induction incs generalizing d with
  | nil => simp
  | cons e es ih =>
    rw [List.foldl_cons, ih, bump, Dict.mem_keys_set]
    constructor
    · rintro ((h | h) | ⟨e', he', h⟩)
      · exact Or.inr ⟨e, by simp, h.symm⟩
      · exact Or.inl h
      · exact Or.inr ⟨e', by simp [he'], h⟩
    · rintro (h | ⟨e', he', h⟩)
      · exact Or.inl (Or.inr h)
      · rcases List.mem_cons.1 he' with rfl | he'
        · exact Or.inl (Or.inl h.symm)
        · exact Or.inr ⟨e', he', h⟩

private theorem wf_bump (incs : List ((Str × Str) × Rat)) {d : Dict (Str × Str) Rat} (h : d.WF) : (incs.foldl bump d).WF := by
  induction incs generalizing d with
  | nil => exact h
  | cons e es ih => exact ih (h.set _ _)

private theorem sum_add {α : Type} (l : List α) (f g : α → Rat) : (l.map (fun x => f x + g x)).sum = (l.map f).sum + (l.map g).sum := by
  induction l with
  | nil => simp
  | cons x l ih => simp only [List.map_cons, List.sum_cons, ih]; ring

private theorem sum_zeros {α : Type} (l : List α) : (l.map (fun _ => (0 : Rat))).sum = 0 := by
  induction l with
  | nil => rfl
  | cons x l ih => rw [List.map_cons, List.sum_cons, ih, zero_add]

private theorem sum_swap {α β : Type} (l : List α) (m : List β) (f : α → β → Rat) :
    (l.map (fun x => (m.map (fun y => f x y)).sum)).sum = (m.map (fun y => (l.map (fun x => f x y)).sum)).sum := by
  induction l with
  | nil => simp only [List.map_nil, List.sum_nil, sum_zeros]
  | cons x l ih => simp only [List.map_cons, List.sum_cons, ih, sum_add]

private theorem sum_ite {α : Type} (l : List α) (P : α → Bool) (c : Rat) :
    (l.map (fun x => if P x = true then c else 0)).sum = c * ((l.countP P : Nat) : Rat) := by
  induction l with
  | nil => simp
  | cons x l ih =>
    rw [List.map_cons, List.sum_cons, ih, List.countP_cons]
    by_cases h : P x = true
    · simp [h]; ring
    · simp [h]

private theorem sum_zipIdx (words : List Str) (F : Str → Nat → Rat) (k : Nat) :
    ((words.zipIdx k).map (fun wi => F wi.1 wi.2)).sum =
      ((List.range words.length).map (fun i => match words[i]? with | some w => F w (i + k) | none => 0)).sum := by
  induction words generalizing k with
  | nil => rfl
  | cons w ws ih =>
    rw [List.zipIdx_cons, List.map_cons, List.sum_cons, ih, List.length_cons, List.range_succ_eq_map, List.map_cons, List.sum_cons, List.map_map]
    simp only [List.getElem?_cons_zero, Nat.zero_add]
    congr 2
    apply List.map_congr_left
    intro i _
    simp only [Function.comp, Nat.succ_eq_add_one, List.getElem?_cons_succ]
    rw [show i + (k + 1) = i + 1 + k by omega]

private theorem countP_shift (n d : Nat) (Q : Nat → Bool) :
    (List.range n).countP (fun i => decide (d ≤ i) && Q (i - d)) = (List.range (n - d)).countP Q := by
  induction n with
  | zero => simp
  | succ n ih =>
    rw [List.range_succ, List.countP_append, ih]
    by_cases h : d ≤ n
    · rw [show n + 1 - d = (n - d) + 1 by omega, List.range_succ, List.countP_append]
      simp [h]
    · rw [show n + 1 - d = 0 by omega, show n - d = 0 by omega]
      simp [h]

private theorem countP_cut (n d : Nat) (Q : Nat → Bool) (h : ∀ i, n - d ≤ i → i < n → Q i = false) :
    (List.range n).countP Q = (List.range (n - d)).countP Q := by
  induction d with
  | zero => simp
  | succ d ih =>
    rw [ih (fun i h1 h2 => h i (by omega) h2)]
    by_cases hd : d < n
    · rw [show n - d = (n - (d + 1)) + 1 by omega, List.range_succ, List.countP_append]
      have := h (n - (d + 1)) (Nat.le_refl _) (by omega)
      simp [this]
    · rw [show n - d = n - (d + 1) by omega]

/-- looking back from the second word counts the same pairs as looking forward from the first -/
private theorem countP_back (words : List Str) (a b : Str) (d : Nat) :
    (List.range words.length).countP (fun i => decide (d ≤ i) && decide (words[i]? = some a ∧ words[i - d]? = some b)) = apart d b a words := by
  unfold apart
  have h1 := countP_shift words.length d (fun j => decide (words[j + d]? = some a ∧ words[j]? = some b))
  have h2 := countP_cut words.length d (fun i => decide (words[i]? = some b ∧ words[i + d]? = some a)) (by
    intro i hi hn
    rw [decide_eq_false_iff_not]
    rintro ⟨_, h⟩
    have := (List.getElem?_eq_some_iff.1 h).1
    omega)
  rw [h2]
  rw [← List.countP_congr (p := fun i => decide (d ≤ i) && decide (words[i - d + d]? = some a ∧ words[i - d]? = some b)), h1]
  · apply List.countP_congr
    intro i _; simp [and_comm]
  · intro i _
    by_cases h : d ≤ i
    · rw [show i - d + d = i by omega]
    · simp [h]

private theorem total_filterMap (k : Str × Str) (l : List Nat) (g : Nat → Option ((Str × Str) × Rat)) :
    total k (l.filterMap g) = (l.map (fun w => match g w with | some e => if e.1 = k then e.2 else 0 | none => 0)).sum := by
  induction l with
  | nil => rfl
  | cons w l ih =>
    rw [List.filterMap_cons, List.map_cons, List.sum_cons, ← ih]
    cases hg : g w with
    | none => simp
    | some e =>
      simp only
      unfold total
      by_cases h : e.1 = k <;> simp [h]

private theorem total_increments (p : WC.Params) (known : Str → Bool) (words : List Str) (i : Nat) (word a b : Str) (hb : known b = true) :
    total (a, b) (increments p known words i word) =
      ((List.range p.windows.toNat).map (fun w =>
        (if (decide (w + 1 ≤ i) && decide (word = a ∧ words[i - (w + 1)]? = some b)) = true then weight p w else 0) +
        (if decide (word = a ∧ words[i + (w + 1)]? = some b) = true then weight p w else 0))).sum := by
  unfold increments
  rw [total_append, total_filterMap, total_filterMap, sum_add]
  congr 1 <;> congr 1 <;> apply List.map_congr_left <;> intro w _
  · by_cases hi : i < w + 1
    · rw [if_pos hi]
      have : ¬ (w + 1 ≤ i) := by omega
      simp [this]
    · rw [if_neg hi]
      have hle : w + 1 ≤ i := by omega
      cases hw : words[i - (w + 1)]? with
      | none => simp
      | some c =>
        by_cases hk : known c = true
        · simp [hk, hle]
        · have : c ≠ b := by rintro rfl; exact hk hb
          simp [hk, this]
  · rw [show i + (w + 1) = i + w + 1 by omega]
    cases hw : words[i + w + 1]? with
    | none => simp
    | some c =>
      by_cases hk : known c = true
      · simp [hk]
      · have : c ≠ b := by rintro rfl; exact hk hb
        simp [hk, this]

private theorem weight_eq (p : WC.Params) (hp : 0 ≤ p.windows) (w : Nat) :
    weight p w = if p.dynamicWeight then ((p.windows.toNat : Rat) - w) / p.windows.toNat else 1 := by
  unfold weight
  have : (p.windows : Rat) = ((p.windows.toNat : Nat) : Rat) := by
    obtain ⟨n, hn⟩ := Int.eq_ofNat_of_zero_le hp
    rw [hn]; simp
  rw [this]

private theorem total_sentence (p : WC.Params) (known : Str → Bool) (words : List Str) (a b : Str) (ha : known a = true) (hb : known b = true) :
    total (a, b) (sentIncrements p known words) = coWeight p.windows.toNat p.dynamicWeight words a b := by
  unfold sentIncrements coWeight
  rw [total_flatMap]
  have h1 : (words.zipIdx.map (fun wi => total (a, b) (if known wi.1 = true then increments p known words wi.2 wi.1 else []))).sum =
      ((List.range words.length).map (fun i => ((List.range p.windows.toNat).map (fun w =>
        (if (decide (w + 1 ≤ i) && decide (words[i]? = some a ∧ words[i - (w + 1)]? = some b)) = true then weight p w else 0) +
        (if decide (words[i]? = some a ∧ words[i + (w + 1)]? = some b) = true then weight p w else 0))).sum)).sum := by
    rw [sum_zipIdx words (fun w i => total (a, b) (if known w = true then increments p known words i w else [])) 0]
    congr 1
    apply List.map_congr_left
    intro i _
    cases hw : words[i]? with
    | none => simp [sum_zeros]
    | some c =>
      simp only [Nat.add_zero, Option.some.injEq]
      by_cases hk : known c = true
      · rw [if_pos hk, total_increments p known words i c a b hb]
      · have : c ≠ a := by rintro rfl; exact hk ha
        rw [if_neg hk, total_nil]
        simp [this, sum_zeros]
  rw [h1, sum_swap]
  congr 1
  apply List.map_congr_left
  intro w hw
  have hpos : 0 ≤ p.windows := by
    have := List.mem_range.1 hw; omega
  rw [sum_add, sum_ite, sum_ite, weight_eq p hpos, countP_back]
  unfold apart
  push_cast
  ring

/-! ### the matrix -/

private theorem mapM_ok' {α β : Type} (f : α → PyM β) (g : α → β) (l : List α) (h : ∀ a ∈ l, f a = .ok (g a)) : l.mapM f = .ok (l.map g) := by
  induction l with
  | nil => rfl
  | cons a l ih =>
    rw [List.mapM_cons, h a (by simp), ih (fun b hb => h b (by simp [hb]))]
    rfl

private theorem keys_known (p : WC.Params) (known : Str → Bool) (words : List Str) : ∀ e ∈ sentIncrements p known words, known e.1.1 = true ∧ known e.1.2 = true := by
  intro e he
  unfold sentIncrements at he
  obtain ⟨⟨w, i⟩, _, hm⟩ := List.mem_flatMap.1 he
  split at hm
  · rename_i hk
    unfold increments at hm
    rcases List.mem_append.1 hm with hm | hm
    · obtain ⟨v, _, hv⟩ := List.mem_filterMap.1 hm
      split at hv
      · cases hv
      · split at hv
        · split at hv
          · rename_i hc; cases hv; exact ⟨hk, hc⟩
          · cases hv
        · cases hv
    · obtain ⟨v, _, hv⟩ := List.mem_filterMap.1 hm
      split at hv
      · split at hv
        · rename_i hc; cases hv; exact ⟨hk, hc⟩
        · cases hv
      · cases hv
  · cases hm

private theorem context_keys (p : WC.Params) (v2i : Dict Str Nat) (sents : List Str) (k : Str × Str) (h : k ∈ Dict.keys (wordContext p v2i sents)) :
    Dict.has v2i k.1 = true ∧ Dict.has v2i k.2 = true := by
  unfold wordContext at h
  rw [keys_bump] at h
  rcases h with h | ⟨e, he, rfl⟩
  · cases h
  · obtain ⟨s, _, hs⟩ := List.mem_flatMap.1 he
    exact keys_known p _ _ e hs

private theorem context_value (p : WC.Params) (v2i : Dict Str Nat) (sents : List Str) (a b : Str) (ha : Dict.has v2i a = true) (hb : Dict.has v2i b = true) :
    Dict.getD (wordContext p v2i sents) (a, b) 0 = coWeights p sents a b := by
  unfold wordContext coWeights
  rw [getD_bump, total_flatMap]
  simp only [Dict.getD, Dict.get?_nil, Option.getD_none, zero_add]
  congr 1
  apply List.map_congr_left
  intro s _
  exact total_sentence p _ _ a b ha hb

private theorem cell_single (x : List (Nat × Nat × Rat)) (hnd : (x.map (fun e => (e.1, e.2.1))).Nodup) (i j : Nat) (v : Rat) (h : (i, j, v) ∈ x) :
    cell x i j = v := by
  induction x with
  | nil => cases h
  | cons e x ih =>
    rw [List.map_cons, List.nodup_cons] at hnd
    unfold cell at ih ⊢
    rcases List.mem_cons.1 h with rfl | h
    · have : x.filter (fun e => decide (e.1 = i ∧ e.2.1 = j)) = [] := by
        rw [List.filter_eq_nil_iff]
        intro e he hc
        rw [decide_eq_true_iff] at hc
        exact hnd.1 (List.mem_map.2 ⟨e, he, by rw [hc.1, hc.2]⟩)
      rw [List.filter_cons, if_pos (by simp), this]; simp
    · have : ¬ (e.1 = i ∧ e.2.1 = j) := by
        rintro ⟨rfl, rfl⟩
        exact hnd.1 (List.mem_map.2 ⟨_, h, rfl⟩)
      rw [List.filter_cons, if_neg (by simpa using this)]
      exact ih hnd.2 h

private theorem cell_absent (x : List (Nat × Nat × Rat)) (i j : Nat) (h : ∀ v, (i, j, v) ∉ x) : cell x i j = 0 := by
  unfold cell
  have : x.filter (fun e => decide (e.1 = i ∧ e.2.1 = j)) = [] := by
    rw [List.filter_eq_nil_iff]
    rintro ⟨a, b, v⟩ he hc
    rw [decide_eq_true_iff] at hc
    obtain ⟨rfl, rfl⟩ := hc
    exact h v he
  rw [this]; rfl

private theorem encode_eq (p : WC.Params) (v2i : Dict Str Nat) (sents : List Str) :
    (wordContext p v2i sents).mapM (encodeEntry v2i) =
      .ok ((wordContext p v2i sents).map (fun e => (Dict.getD v2i e.1.1 0, Dict.getD v2i e.1.2 0, e.2))) := by
  apply mapM_ok'
  intro e he
  obtain ⟨h1, h2⟩ := context_keys p v2i sents e.1 (List.mem_map.2 ⟨e, he, rfl⟩)
  unfold encodeEntry
  obtain ⟨i, hi⟩ := Option.isSome_iff_exists.1 h1
  obtain ⟨j, hj⟩ := Option.isSome_iff_exists.1 h2
  simp [Dict.getD, hi, hj]

/-- **C37** Whenever the matrix is built, for every enumeration order of the vocabulary set: the vocabulary is exactly the words with
    frequency ≥ `min_tf`, without repetition, in non-increasing frequency; the cell of words `a`, `b` is their co-occurrence weight
    (constant or dynamic); the matrix is symmetric; every stored entry lies inside the vocabulary. -/
theorem C37_matrix (p : WC.Params) (sents order : List Str) (ho : order.Perm (kept p sents)) (x : List (Nat × Nat × Rat)) (vocab : List Str)
    (h : matrix p sents order = .ok (x, vocab)) :
    vocab.Nodup ∧ (∀ w, w ∈ vocab ↔ 0 < wordFreq p sents w ∧ p.minTf ≤ wordFreq p sents w) ∧
    vocab.Pairwise (fun a b => wordFreq p sents b ≤ wordFreq p sents a) ∧
    (∀ i j a b, vocab[i]? = some a → vocab[j]? = some b → cell x i j = coWeights p sents a b) ∧
    (∀ i j, cell x i j = cell x j i) ∧
    (∀ e ∈ x, e.1 < vocab.length ∧ e.2.1 < vocab.length) := by
  unfold matrix at h
  split at h
  · cases h
  obtain ⟨v1, v2, v3, v4⟩ := vocab_facts p sents order ho
  generalize hv : vocab2idx p sents order = v2i at *
  unfold encodeAsMatrix at h
  rw [encode_eq] at h
  have hx : x = (wordContext p v2i sents).map (fun e => (Dict.getD v2i e.1.1 0, Dict.getD v2i e.1.2 0, e.2)) ∧ idx2vocab v2i = vocab := by
    generalize (wordContext p v2i sents).map (fun e => (Dict.getD v2i e.1.1 0, Dict.getD v2i e.1.2 0, e.2)) = l at *
    cases l with
    | nil => cases h
    | cons y l =>
      have := Except.ok.inj h
      exact ⟨(congrArg Prod.fst this).symm, congrArg Prod.snd this⟩
  obtain ⟨hx, hvoc⟩ := hx
  rw [hvoc] at v1 v2 v3 v4
  have hwf : Dict.WF (wordContext p v2i sents) := wf_bump _ Dict.wf_nil
  have hin : ∀ a, Dict.has v2i a = true → vocab[Dict.getD v2i a 0]? = some a := by
    intro a ha
    obtain ⟨i, hi⟩ := Option.isSome_iff_exists.1 ha
    simp only [Dict.getD, hi, Option.getD_some]
    exact (v4 a i).1 hi
  have hnd : (x.map (fun e => (e.1, e.2.1))).Nodup := by
    rw [hx, List.map_map, List.nodup_iff_pairwise_ne, List.pairwise_map]
    have := hwf
    unfold Dict.WF Dict.keys at this
    rw [List.nodup_iff_pairwise_ne, List.pairwise_map] at this
    refine List.Pairwise.imp_of_mem ?_ this
    intro e e' he he' hne heq
    simp only [Function.comp, Prod.mk.injEq] at heq
    obtain ⟨k1, k2⟩ := context_keys p v2i sents e.1 (List.mem_map.2 ⟨e, he, rfl⟩)
    obtain ⟨k1', k2'⟩ := context_keys p v2i sents e'.1 (List.mem_map.2 ⟨e', he', rfl⟩)
    apply hne
    have e1 := hin _ k1; rw [heq.1, hin _ k1'] at e1
    have e2 := hin _ k2; rw [heq.2, hin _ k2'] at e2
    exact Prod.ext (Option.some.inj e1).symm (Option.some.inj e2).symm
  have hcell : ∀ i j a b, vocab[i]? = some a → vocab[j]? = some b → cell x i j = coWeights p sents a b := by
    intro i j a b hi hj
    have hia := (v4 a i).2 hi
    have hjb := (v4 b j).2 hj
    have ha : Dict.has v2i a = true := by rw [Dict.has, hia]; rfl
    have hb : Dict.has v2i b = true := by rw [Dict.has, hjb]; rfl
    have hval := context_value p v2i sents a b ha hb
    cases hg : Dict.get? (wordContext p v2i sents) (a, b) with
    | some v =>
      simp only [Dict.getD, hg, Option.getD_some] at hval
      rw [← hval]
      apply cell_single x hnd
      rw [hx]
      exact List.mem_map.2 ⟨((a, b), v), Dict.mem_of_get? hg, by simp [Dict.getD, hia, hjb]⟩
    | none =>
      simp only [Dict.getD, hg, Option.getD_none] at hval
      rw [← hval]
      apply cell_absent
      intro v hv'
      rw [hx] at hv'
      obtain ⟨⟨⟨a', b'⟩, v'⟩, he, heq⟩ := List.mem_map.1 hv'
      simp only [Prod.mk.injEq] at heq
      obtain ⟨k1, k2⟩ := context_keys p v2i sents (a', b') (List.mem_map.2 ⟨_, he, rfl⟩)
      have e1 := hin _ k1; rw [heq.1, hi] at e1
      have e2 := hin _ k2; rw [heq.2.1, hj] at e2
      cases e1; cases e2
      rw [Dict.get?_of_mem hwf he] at hg; cases hg
  have hrange : ∀ e ∈ x, e.1 < vocab.length ∧ e.2.1 < vocab.length := by
    intro e he
    rw [hx] at he
    obtain ⟨e', he', rfl⟩ := List.mem_map.1 he
    obtain ⟨k1, k2⟩ := context_keys p v2i sents e'.1 (List.mem_map.2 ⟨e', he', rfl⟩)
    exact ⟨(List.getElem?_eq_some_iff.1 (hin _ k1)).1, (List.getElem?_eq_some_iff.1 (hin _ k2)).1⟩
  have hcomm : ∀ a b, coWeights p sents a b = coWeights p sents b a := by
    intro a b
    unfold coWeights
    congr 1
    apply List.map_congr_left
    intro s _
    unfold coWeight
    congr 1
    apply List.map_congr_left
    intro k _
    rw [Nat.add_comm]
  refine ⟨v1, ?_, v3, hcell, ?_, hrange⟩
  · intro w; rw [v2.mem_iff, mem_kept]
  · intro i j
    by_cases hi : i < vocab.length
    · by_cases hj : j < vocab.length
      · rw [hcell i j _ _ (List.getElem?_eq_getElem hi) (List.getElem?_eq_getElem hj),
          hcell j i _ _ (List.getElem?_eq_getElem hj) (List.getElem?_eq_getElem hi), hcomm]
      · rw [cell_absent x i j (fun v hv' => hj (hrange _ hv').2), cell_absent x j i (fun v hv' => hj (hrange _ hv').1)]
    · rw [cell_absent x i j (fun v hv' => hi (hrange _ hv').1), cell_absent x j i (fun v hv' => hi (hrange _ hv').2)]

/-- dynamic weights 1 and 1/2 within a window of 2: `a b a` gives a-b weight 2 and a-a weight 1 (1/2 from each side) -/
example : ∃ x, matrix { windows := 2, minTf := 1, dynamicWeight := true } ["a b a".toList] [['a'], ['b']] = .ok (x, [['a'], ['b']]) ∧
    cell x 0 1 = 2 ∧ cell x 1 0 = 2 ∧ cell x 0 0 = 1 := ⟨[(0, 1, 2), (0, 0, 1), (1, 0, 2)], by decide +kernel, by decide +kernel, by decide +kernel, by decide +kernel⟩

/-- **C37** The only failures: `UnboundLocalError` on an empty corpus with `verbose`; and scipy's `ValueError` exactly when no two
    vocabulary words occur within the window of each other anywhere. -/
theorem C37_failures (p : WC.Params) (sents order : List Str) (ho : order.Perm (kept p sents)) (e : PyErr) (h : matrix p sents order = .error e) :
    (e = .unboundLocal ∧ p.verbose = true ∧ sents = []) ∨
    (e = .valueError ∧ ∀ s ∈ sents, ∀ a ∈ kept p sents, ∀ b ∈ kept p sents, ∀ d : Nat, 1 ≤ d → (d : Int) ≤ p.windows → apart d a b (p.tokenizer s) = 0) := by
  unfold matrix at h
  split at h
  · rename_i hc; cases h; exact Or.inl ⟨rfl, hc.1, hc.2⟩
  right
  obtain ⟨v1, v2, v3, v4⟩ := vocab_facts p sents order ho
  generalize hv : vocab2idx p sents order = v2i at *
  unfold encodeAsMatrix at h
  rw [encode_eq] at h
  have hnil : wordContext p v2i sents = [] ∧ e = .valueError := by
    generalize hw : wordContext p v2i sents = w at *
    cases w with
    | nil => cases h; exact ⟨rfl, rfl⟩
    | cons y l => cases h
  refine ⟨hnil.2, ?_⟩
  intro s hs a ha b hb d hd1 hd2
  have hknown : ∀ a ∈ kept p sents, Dict.has v2i a = true := by
    intro a ha
    obtain ⟨i, hi⟩ := List.mem_iff_getElem?.1 (v2.mem_iff.2 ha)
    rw [Dict.has, (v4 a i).2 hi]; rfl
  by_contra hne
  have hpos : 0 < apart d a b (p.tokenizer s) := Nat.pos_of_ne_zero hne
  unfold apart at hpos
  obtain ⟨i, hi, hc⟩ := List.countP_pos_iff.1 hpos
  rw [decide_eq_true_iff] at hc
  have hmem : ((a, b), weight p (d - 1)) ∈ sentIncrements p (fun w => Dict.has v2i w) (p.tokenizer s) := by
    unfold sentIncrements
    refine List.mem_flatMap.2 ⟨(a, i), List.mem_zipIdx_iff_getElem?.2 hc.1, ?_⟩
    rw [if_pos (hknown a ha)]
    unfold increments
    refine List.mem_append_right _ (List.mem_filterMap.2 ⟨d - 1, List.mem_range.2 (by omega), ?_⟩)
    rw [show i + (d - 1) + 1 = i + d by omega, hc.2]
    simp [hknown b hb]
  have : (a, b) ∈ Dict.keys (wordContext p v2i sents) := by
    unfold wordContext
    rw [keys_bump]
    exact Or.inr ⟨_, List.mem_flatMap.2 ⟨s, hs, hmem⟩, rfl⟩
  rw [hnil.1] at this
  cases this

example : matrix { minTf := 1 } ["a".toList] [['a']] = .error .valueError := by decide +kernel

/-! ### which cells are stored, when it fails, and the shape -/

private theorem le_sum_mem (l : List Nat) (n : Nat) (h : n ∈ l) : n ≤ l.sum := by
  induction l with
  | nil => cases h
  | cons a l ih =>
    rw [List.sum_cons]
    rcases List.mem_cons.1 h with rfl | h
    · omega
    · have := ih h; omega

/-- two words occur within the window of each other somewhere in the corpus -/
def Near (p : WC.Params) (sents : List Str) (a b : Str) : Prop :=
  ∃ s ∈ sents, ∃ d : Nat, 1 ≤ d ∧ (d : Int) ≤ p.windows ∧ (0 < apart d a b (p.tokenizer s) ∨ 0 < apart d b a (p.tokenizer s))

private theorem apart_pos (d : Nat) (a b : Str) (words : List Str) : 0 < apart d a b words ↔ ∃ i, words[i]? = some a ∧ words[i + d]? = some b := by
  unfold apart
  rw [List.countP_pos_iff]
  constructor
  · rintro ⟨i, _, h⟩; exact ⟨i, of_decide_eq_true h⟩
  · rintro ⟨i, h⟩
    refine ⟨i, List.mem_range.2 ?_, decide_eq_true h⟩
    obtain ⟨hl, _⟩ := List.getElem?_eq_some_iff.1 h.1
    exact hl

private theorem mem_context_iff (p : WC.Params) (v2i : Dict Str Nat) (sents : List Str) (a b : Str) :
    (a, b) ∈ Dict.keys (wordContext p v2i sents) ↔ Dict.has v2i a = true ∧ Dict.has v2i b = true ∧ Near p sents a b := by
  constructor
  · intro h
    obtain ⟨ha, hb⟩ := context_keys p v2i sents _ h
    refine ⟨ha, hb, ?_⟩
    unfold wordContext at h
    rw [keys_bump] at h
    rcases h with h | ⟨e, he, hk⟩
    · cases h
    obtain ⟨s, hs, hm⟩ := List.mem_flatMap.1 he
    refine ⟨s, hs, ?_⟩
    unfold sentIncrements at hm
    obtain ⟨⟨w, i⟩, hwi, hm⟩ := List.mem_flatMap.1 hm
    rw [List.mem_zipIdx_iff_getElem?] at hwi
    split at hm
    · unfold increments at hm
      rcases List.mem_append.1 hm with hm | hm
      · obtain ⟨v, hr, hv⟩ := List.mem_filterMap.1 hm
        rw [List.mem_range] at hr
        split at hv
        · cases hv
        · split at hv
          · rename_i hi c hc
            split at hv
            · cases hv
              cases hk
              refine ⟨v + 1, by omega, by omega, Or.inr ((apart_pos _ _ _ _).2 ⟨i - (v + 1), hc, ?_⟩)⟩
              rw [show i - (v + 1) + (v + 1) = i by omega]; exact hwi
            · cases hv
          · cases hv
      · obtain ⟨v, hr, hv⟩ := List.mem_filterMap.1 hm
        rw [List.mem_range] at hr
        split at hv
        · rename_i c hc
          split at hv
          · cases hv
            cases hk
            exact ⟨v + 1, by omega, by omega, Or.inl ((apart_pos _ _ _ _).2 ⟨i, hwi, hc⟩)⟩
          · cases hv
        · cases hv
    · cases hm
  · rintro ⟨ha, hb, s, hs, d, hd1, hd2, h⟩
    have hmem : ((a, b), weight p (d - 1)) ∈ sentIncrements p (fun w => Dict.has v2i w) (p.tokenizer s) := by
      unfold sentIncrements
      rcases h with h | h
      · obtain ⟨i, h1, h2⟩ := (apart_pos _ _ _ _).1 h
        refine List.mem_flatMap.2 ⟨(a, i), List.mem_zipIdx_iff_getElem?.2 h1, ?_⟩
        rw [if_pos ha]
        unfold increments
        refine List.mem_append_right _ (List.mem_filterMap.2 ⟨d - 1, List.mem_range.2 (by omega), ?_⟩)
        rw [show i + (d - 1) + 1 = i + d by omega, h2]
        simp [hb]
      · obtain ⟨i, h1, h2⟩ := (apart_pos _ _ _ _).1 h
        refine List.mem_flatMap.2 ⟨(a, i + d), List.mem_zipIdx_iff_getElem?.2 h2, ?_⟩
        rw [if_pos ha]
        unfold increments
        refine List.mem_append_left _ (List.mem_filterMap.2 ⟨d - 1, List.mem_range.2 (by omega), ?_⟩)
        dsimp only
        rw [if_neg (by omega), show i + d - (d - 1 + 1) = i by omega, h1]
        simp [hb]
    unfold wordContext
    rw [keys_bump]
    exact Or.inr ⟨_, List.mem_flatMap.2 ⟨s, hs, hmem⟩, rfl⟩

private theorem has_iff_kept (p : WC.Params) (sents order : List Str) (ho : order.Perm (kept p sents)) (a : Str) :
    Dict.has (vocab2idx p sents order) a = true ↔ a ∈ idx2vocab (vocab2idx p sents order) := by
  obtain ⟨v1, v2, v3, v4⟩ := vocab_facts p sents order ho
  rw [List.mem_iff_getElem?, Dict.has, Option.isSome_iff_exists]
  exact exists_congr (fun i => v4 a i)

/-- **C37** Exactly which cells of the matrix are stored: those of two vocabulary words occurring within the window of each other. -/
theorem C37_stored (p : WC.Params) (sents order : List Str) (ho : order.Perm (kept p sents)) (x : List (Nat × Nat × Rat)) (vocab : List Str)
    (h : matrix p sents order = .ok (x, vocab)) (i j : Nat) :
    (∃ v, (i, j, v) ∈ x) ↔ ∃ a b, vocab[i]? = some a ∧ vocab[j]? = some b ∧ Near p sents a b := by
  unfold matrix at h
  split at h
  · cases h
  have hk := has_iff_kept p sents order ho
  obtain ⟨v1, v2, v3, v4⟩ := vocab_facts p sents order ho
  generalize hv : vocab2idx p sents order = v2i at *
  unfold encodeAsMatrix at h
  rw [encode_eq] at h
  have hx : x = (wordContext p v2i sents).map (fun e => (Dict.getD v2i e.1.1 0, Dict.getD v2i e.1.2 0, e.2)) ∧ idx2vocab v2i = vocab := by
    generalize (wordContext p v2i sents).map (fun e => (Dict.getD v2i e.1.1 0, Dict.getD v2i e.1.2 0, e.2)) = l at *
    cases l with
    | nil => cases h
    | cons y l =>
      have := Except.ok.inj h
      exact ⟨(congrArg Prod.fst this).symm, congrArg Prod.snd this⟩
  obtain ⟨rfl, rfl⟩ := hx
  have hin : ∀ a, Dict.has v2i a = true → (idx2vocab v2i)[Dict.getD v2i a 0]? = some a := by
    intro a ha
    obtain ⟨i, hi⟩ := Option.isSome_iff_exists.1 ha
    simp only [Dict.getD, hi, Option.getD_some]
    exact (v4 a i).1 hi
  constructor
  · rintro ⟨v, hv⟩
    obtain ⟨⟨⟨a, b⟩, w⟩, he, hp⟩ := List.mem_map.1 hv
    cases hp
    obtain ⟨ha, hb, hn⟩ := (mem_context_iff p v2i sents a b).1 (List.mem_map.2 ⟨_, he, rfl⟩)
    exact ⟨a, b, hin a ha, hin b hb, hn⟩
  · rintro ⟨a, b, ha, hb, hn⟩
    obtain ⟨⟨⟨a', b'⟩, w⟩, he, hp⟩ := List.mem_map.1 ((mem_context_iff p v2i sents a b).2
      ⟨(hk a).2 (List.mem_of_getElem? ha), (hk b).2 (List.mem_of_getElem? hb), hn⟩)
    cases hp
    refine ⟨w, List.mem_map.2 ⟨_, he, ?_⟩⟩
    simp only [Dict.getD, (v4 a i).2 ha, (v4 b j).2 hb, Option.getD_some]

/-- **C37** When it fails, exactly: `UnboundLocalError` iff the corpus is empty and `verbose` is on; otherwise scipy's `ValueError` iff no
    two (possibly equal) vocabulary words occur within the window of each other. -/
theorem C37_failure_iff (p : WC.Params) (sents order : List Str) (ho : order.Perm (kept p sents)) :
    (matrix p sents order = .error .unboundLocal ↔ p.verbose = true ∧ sents = []) ∧
    (matrix p sents order = .error .valueError ↔ ¬ (p.verbose = true ∧ sents = []) ∧
      ∀ a b, p.minTf ≤ wordFreq p sents a → p.minTf ≤ wordFreq p sents b → ¬ Near p sents a b) := by
  have hk := has_iff_kept p sents order ho
  obtain ⟨v1, v2, v3, v4⟩ := vocab_facts p sents order ho
  unfold matrix
  by_cases hc : p.verbose = true ∧ sents = []
  · rw [if_pos hc]; simp [hc]
  rw [if_neg hc]
  generalize hv : vocab2idx p sents order = v2i at *
  unfold encodeAsMatrix
  rw [encode_eq]
  have hfreq : ∀ a b, Near p sents a b → 0 < wordFreq p sents a ∧ 0 < wordFreq p sents b := by
    have key : ∀ s ∈ sents, ∀ w ∈ p.tokenizer s, 0 < wordFreq p sents w := by
      intro s hs w hw
      unfold wordFreq
      have hpos : 0 < (p.tokenizer s).countP (fun x => decide (x = w)) := List.countP_pos_iff.2 ⟨w, hw, decide_eq_true rfl⟩
      exact Nat.lt_of_lt_of_le hpos (le_sum_mem _ _ (List.mem_map.2 ⟨s, hs, rfl⟩))
    rintro a b ⟨s, hs, d, _, _, h | h⟩
    · obtain ⟨i, h1, h2⟩ := (apart_pos _ _ _ _).1 h
      exact ⟨key s hs a (List.mem_of_getElem? h1), key s hs b (List.mem_of_getElem? h2)⟩
    · obtain ⟨i, h1, h2⟩ := (apart_pos _ _ _ _).1 h
      exact ⟨key s hs a (List.mem_of_getElem? h2), key s hs b (List.mem_of_getElem? h1)⟩
  have hnil : wordContext p v2i sents = [] ↔ ∀ a b, p.minTf ≤ wordFreq p sents a → p.minTf ≤ wordFreq p sents b → ¬ Near p sents a b := by
    constructor
    · intro h0 a b ha hb hn
      have hf := hfreq a b hn
      have := (mem_context_iff p v2i sents a b).2 ⟨(hk a).2 (v2.mem_iff.2 ((mem_kept p sents a).2 ⟨hf.1, ha⟩)), (hk b).2 (v2.mem_iff.2 ((mem_kept p sents b).2 ⟨hf.2, hb⟩)), hn⟩
      rw [h0] at this; cases this
    · intro hno
      cases hw : wordContext p v2i sents with
      | nil => rfl
      | cons e l =>
        obtain ⟨⟨a, b⟩, v⟩ := e
        obtain ⟨ha, hb, hn⟩ := (mem_context_iff p v2i sents a b).1 (by rw [hw]; exact List.mem_cons_self)
        exact absurd hn (hno a b ((mem_kept p sents a).1 (v2.mem_iff.1 ((hk a).1 ha))).2 ((mem_kept p sents b).1 (v2.mem_iff.1 ((hk b).1 hb))).2)
  rw [← hnil]
  generalize wordContext p v2i sents = w
  cases w with
  | nil => simp [hc]
  | cons e l => exact ⟨⟨fun h => by (cases h), fun h => absurd h hc⟩, ⟨fun h => by (cases h), fun h => by (cases h.2)⟩⟩

/-- the number of rows scipy infers for the matrix: one more than the largest row index stored -/
def rows (x : List (Nat × Nat × Rat)) : Nat := (x.map (fun e => e.1 + 1)).foldr max 0

/-- **C37** (violated expectation) The matrix need not have a row for every vocabulary word: the rarest words with no neighbour in the
    vocabulary are cut off its end. It has a row for the i-th word exactly if that word or one after it has a neighbour. -/
theorem C37_shape (p : WC.Params) (sents order : List Str) (ho : order.Perm (kept p sents)) (x : List (Nat × Nat × Rat)) (vocab : List Str)
    (h : matrix p sents order = .ok (x, vocab)) (i : Nat) :
    rows x ≤ vocab.length ∧ (i < rows x ↔ ∃ j a b, i ≤ j ∧ vocab[j]? = some a ∧ b ∈ vocab ∧ Near p sents a b) := by
  have hlt : ∀ (x : List (Nat × Nat × Rat)) (i : Nat), i < rows x ↔ ∃ e ∈ x, i ≤ e.1 := by
    intro x i
    unfold rows
    induction x with
    | nil => simp
    | cons e x ih =>
      rw [List.map_cons, List.foldr_cons, lt_max_iff, ih]
      constructor
      · rintro (h | ⟨e', he', h⟩)
        · exact ⟨e, by simp, by omega⟩
        · exact ⟨e', by simp [he'], h⟩
      · rintro ⟨e', he', h⟩
        rcases List.mem_cons.1 he' with rfl | he'
        · exact Or.inl (by omega)
        · exact Or.inr ⟨e', he', h⟩
  constructor
  · have hin := (C37_matrix p sents order ho x vocab h).2.2.2.2.2
    by_contra hc
    obtain ⟨e, he, hle⟩ := (hlt x vocab.length).1 (by omega)
    have := (hin e he).1
    omega
  · rw [hlt]
    constructor
    · rintro ⟨⟨j, k, v⟩, he, hle⟩
      obtain ⟨a, b, ha, hb, hn⟩ := (C37_stored p sents order ho x vocab h j k).1 ⟨v, he⟩
      exact ⟨j, a, b, hle, ha, List.mem_of_getElem? hb, hn⟩
    · rintro ⟨j, a, b, hle, ha, hb, hn⟩
      obtain ⟨k, hk⟩ := List.mem_iff_getElem?.1 hb
      obtain ⟨v, hv⟩ := (C37_stored p sents order ho x vocab h j k).2 ⟨a, b, ha, hk, hn⟩
      exact ⟨_, hv, hle⟩

/-- the third word stands alone: three words, two rows -/
example : ∃ x, matrix { minTf := 1 } ["a b a b".toList, "c".toList] [['a'], ['b'], ['c']] = .ok (x, [['a'], ['b'], ['c']]) ∧ rows x = 2 :=
  ⟨[(0, 1, 4), (0, 0, 2), (1, 0, 4), (1, 1, 2)], by decide +kernel, by decide +kernel⟩

end Props
