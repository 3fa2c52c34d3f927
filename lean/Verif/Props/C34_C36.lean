import Verif.Model.Vectorizer
import Verif.Py.DictInt
import Verif.Py.Enum
import Mathlib.Data.List.Nodup
import Mathlib.Data.List.Induction
import Verif.Proofs.Text
/-! C34-C36: BaseVectorizer. -/
namespace Props
open Py VZ

/-- the number of documents containing the term -/
def docFreq (p : VZ.Params) (docs : List Str) (t : Str) : Nat := docs.countP (fun d => decide (t ∈ p.tokenizer d))

/-- the two coding tables are inverse to each other and enumerate `0 .. n_vocabs-1` -/
structure Coding (s : VZ.State) : Prop where
  nodup : s.idx2vocab.Nodup
  size : s.nVocabs = s.idx2vocab.length
  inv : ∀ t i, Dict.get? s.vocabulary t = some i ↔ s.idx2vocab[i]? = some t

private theorem getD_docCounts (p : VZ.Params) (docs : List Str) (t : Str) : Dict.getD (docCounts p docs) t 0 = docFreq p docs t := by
  unfold docCounts docFreq
  have step : ∀ (doc : Str) (df : Dict Str Nat), Dict.getD ((Dict.counter (p.tokenizer doc)).foldl (fun df e => Dict.add df e.1 1) df) t 0 =
      Dict.getD df t 0 + if t ∈ p.tokenizer doc then 1 else 0 := by
    intro doc df
    have h1 := Dict.getD_foldl_inc ((Dict.counter (p.tokenizer doc)).map (·.1)) df t
    rw [List.foldl_map] at h1
    rw [h1, List.countP_map]
    congr 1
    have hnd : (Dict.keys (Dict.counter (p.tokenizer doc))).Nodup := Dict.wf_counter _
    have hm := Dict.mem_keys_counter (p.tokenizer doc) t
    have := List.countP_map (p := fun x => decide (x = t)) (f := fun e : Str × Nat => e.1) (l := Dict.counter (p.tokenizer doc))
    rw [← this]
    have hc : List.countP (fun x => decide (x = t)) (Dict.keys (Dict.counter (p.tokenizer doc))) = (Dict.keys (Dict.counter (p.tokenizer doc))).count t := by
      rw [List.count_eq_countP]; apply List.countP_congr; intro x _; simp
    show List.countP _ (Dict.keys (Dict.counter (p.tokenizer doc))) = _
    rw [hc]
    split
    · rename_i h; exact List.count_eq_one_of_mem hnd (hm.2 h)
    · rename_i h; exact List.count_eq_zero_of_not_mem (fun h' => h (hm.1 h'))
  have : ∀ (docs : List Str) (df : Dict Str Nat), Dict.getD (docs.foldl (fun df doc =>
      (Dict.counter (p.tokenizer doc)).foldl (fun df e => Dict.add df e.1 1) df) df) t 0 = Dict.getD df t 0 + docs.countP (fun d => decide (t ∈ p.tokenizer d)) := by
    intro docs
    induction docs with
    | nil => intro df; simp
    | cons d ds ih =>
      intro df
      rw [List.foldl_cons, ih, step, List.countP_cons]
      simp only [decide_eq_true_eq]; omega
  rw [this]; simp [Dict.getD]

private theorem docCounts_inv (p : VZ.Params) (docs : List Str) : (docCounts p docs).WF ∧ ∀ e ∈ docCounts p docs, 0 < e.2 := by
  unfold docCounts
  have step : ∀ (es : Dict Str Nat) (df : Dict Str Nat), (df.WF ∧ ∀ e ∈ df, 0 < e.2) →
      (Dict.WF (es.foldl (fun df e => Dict.add df e.1 1) df) ∧ ∀ e ∈ es.foldl (fun df e => Dict.add df e.1 1) df, 0 < e.2) := by
    intro es
    induction es with
    | nil => intro df h; exact h
    | cons x xs ih =>
      intro df h
      rw [List.foldl_cons]
      apply ih
      refine ⟨h.1.add _ _, ?_⟩
      rintro ⟨k, v⟩ hm
      rw [Dict.mem_iff_get? (h.1.add _ _), Dict.add, Dict.get?_set] at hm
      split at hm
      · cases hm; exact Nat.succ_pos _
      · exact h.2 (k, v) (Dict.mem_of_get? hm)
  have : ∀ (docs : List Str) (df : Dict Str Nat), (df.WF ∧ ∀ e ∈ df, 0 < e.2) →
      (Dict.WF (docs.foldl (fun df doc => (Dict.counter (p.tokenizer doc)).foldl (fun df e => Dict.add df e.1 1) df) df) ∧
        ∀ e ∈ docs.foldl (fun df doc => (Dict.counter (p.tokenizer doc)).foldl (fun df e => Dict.add df e.1 1) df) df, 0 < e.2) := by
    intro docs
    induction docs with
    | nil => intro df h; exact h
    | cons d ds ih => intro df h; exact ih _ (step _ _ h)
  exact this docs [] ⟨Dict.wf_nil, by simp⟩

private theorem get?_docCounts (p : VZ.Params) (docs : List Str) (t : Str) :
    Dict.get? (docCounts p docs) t = if 0 < docFreq p docs t then some (docFreq p docs t) else none := by
  have h1 := getD_docCounts p docs t
  have h2 := docCounts_inv p docs
  cases hg : Dict.get? (docCounts p docs) t with
  | none => simp only [Dict.getD, hg, Option.getD_none] at h1; rw [if_neg (by omega)]
  | some v =>
    simp only [Dict.getD, hg, Option.getD_some] at h1
    have := h2.2 _ (Dict.mem_of_get? hg)
    rw [if_pos (by simp at this; omega), h1]

/-- the terms selected by `fit` -/
private theorem fit_ok (p : VZ.Params) (docs : List Str) (hne : docs ≠ []) :
    ∃ l : List (Str × Nat), fit p docs = .ok ⟨(l.map (·.1)).zipIdx, l.map (·.1), l.length⟩ ∧ (l.map (·.1)).Nodup ∧
      l.Pairwise (fun a b => b.2 ≤ a.2) ∧
      ∀ t n, (t, n) ∈ l ↔ n = docFreq p docs t ∧ 0 < n ∧
        (⌊(docs.length : Rat) * p.minDf⌋ ≤ (n : Int) ∧ (n : Int) ≤ ⌊(docs.length : Rat) * p.maxDf⌋) ∧ p.minTf ≤ n ∧ n ≤ p.maxTf := by
  have hi := docCounts_inv p docs
  generalize hv : ((docCounts p docs).filter (fun e : Str × Nat => decide (p.minTf ≤ (e.2 : Int) ∧ (e.2 : Int) ≤ p.maxTf))).filter
    (fun e : Str × Nat => Dict.has ((docCounts p docs).filter (fun e : Str × Nat => decide (⌊(docs.length : Rat) * p.minDf⌋ ≤ (e.2 : Int) ∧
      (e.2 : Int) ≤ ⌊(docs.length : Rat) * p.maxDf⌋))) e.1) = vocabs
  have hvwf : Dict.WF vocabs := by rw [← hv]; exact (hi.1.filter _).filter _
  have hp : (ordered vocabs).Perm vocabs := sorted_perm _ _
  have hnd : ((ordered vocabs).map (·.1)).Nodup := (hp.map _).nodup_iff.2 hvwf
  obtain ⟨c1, c2, c3⟩ := coding_enum _ hnd
  refine ⟨ordered vocabs, ?_, hnd, ?_, ?_⟩
  · unfold fit
    rw [if_neg hne]
    dsimp only
    rw [hv, c1, c2]; simp
  · have htp : TotalPre (fun a b : Str × Nat => decide (b.2 ≤ a.2)) := by
      refine ⟨fun a b c h1 h2 => ?_, fun a b => ?_⟩
      · simp only [decide_eq_true_eq] at *; omega
      · simp only [decide_eq_true_eq] at *; omega
    exact (pairwise_sorted htp vocabs).imp (fun h => by simpa using h)
  · intro t n
    rw [hp.mem_iff, ← hv, List.mem_filter, List.mem_filter, Dict.mem_iff_get? hi.1, get?_docCounts]
    simp only [Dict.has, Dict.get?_filter hi.1, get?_docCounts, decide_eq_true_eq]
    by_cases h0 : 0 < docFreq p docs t
    · simp only [if_pos h0, Option.some.injEq]
      constructor
      · rintro ⟨⟨rfl, h1⟩, h2⟩
        refine ⟨rfl, h0, ?_, h1⟩
        by_contra hc
        simp [Option.filter, hc] at h2
      · rintro ⟨rfl, _, h2, h1⟩
        refine ⟨⟨rfl, h1⟩, ?_⟩
        simp [Option.filter, h2]
    · rw [if_neg h0]
      constructor
      · rintro ⟨⟨h, _⟩, _⟩; cases h
      · rintro ⟨rfl, h, _⟩; exact absurd h h0

/-- **C34** After `fit` on any non-empty corpus (none raises), `vocabulary_` and `idx2vocab` are inverse bijections onto
    `0 .. n_vocabs-1`. -/
theorem C34_bijection (p : VZ.Params) (docs : List Str) (hne : docs ≠ []) : ∃ s, fit p docs = .ok s ∧ Coding s ∧ vocabs s = s.idx2vocab := by
  obtain ⟨l, e, hnd, _, _⟩ := fit_ok p docs hne
  obtain ⟨_, c2, c3⟩ := coding_enum _ hnd
  exact ⟨_, e, ⟨hnd, by simp, c3⟩, c2⟩

/-- **C34** The vocabulary is exactly the terms whose *document* frequency lies in both ranges: `min_tf`/`max_tf` are applied to the
    document frequency too, not to the term frequency. Smaller indices have higher document frequency. -/
theorem C34_selection (p : VZ.Params) (docs : List Str) (s : VZ.State) (h : fit p docs = .ok s) :
    (∀ t, t ∈ s.idx2vocab ↔ 0 < docFreq p docs t ∧
      ⌊(docs.length : Rat) * p.minDf⌋ ≤ (docFreq p docs t : Int) ∧ (docFreq p docs t : Int) ≤ ⌊(docs.length : Rat) * p.maxDf⌋ ∧
      p.minTf ≤ docFreq p docs t ∧ docFreq p docs t ≤ p.maxTf) ∧
    s.idx2vocab.Pairwise (fun a b => docFreq p docs b ≤ docFreq p docs a) := by
  by_cases hne : docs = []
  · subst hne; cases h
  obtain ⟨l, e, hnd, hpw, hspec⟩ := fit_ok p docs hne
  rw [e] at h
  have h' := Except.ok.inj h
  subst h'
  constructor
  · intro t
    simp only [List.mem_map]
    constructor
    · rintro ⟨⟨t', n⟩, hm, rfl⟩
      obtain ⟨rfl, h0, h1, h2⟩ := (hspec t' n).1 hm
      exact ⟨h0, h1.1, h1.2, h2⟩
    · rintro ⟨h0, h1, h2, h3⟩
      exact ⟨(t, docFreq p docs t), (hspec t _).2 ⟨rfl, h0, ⟨h1, h2⟩, h3⟩, rfl⟩
  · rw [List.pairwise_map]
    refine List.Pairwise.imp_of_mem ?_ hpw
    rintro ⟨a, n⟩ ⟨b, m⟩ ha hb hle
    obtain ⟨rfl, _⟩ := (hspec a n).1 ha
    obtain ⟨rfl, _⟩ := (hspec b m).1 hb
    exact hle

/-- a term occurring three times in one document is below `min_tf = 2` -/
example : fit { minTf := 2 } ["a a a".toList] = .ok ⟨[], [], 0⟩ := by decide +kernel

example : fit {} ["b a".toList, "a c".toList] = .ok ⟨[(['a'], 0), (['b'], 1), (['c'], 2)], [['a'], ['b'], ['c']], 3⟩ := by decide +kernel

/-- **C34** (violated expectation) Fitting, transforming or writing an empty corpus raises. -/
theorem C34_empty (p : VZ.Params) (s : VZ.State) : fit p [] = .error .unboundLocal ∧ transform p s [] = .error .unboundLocal ∧
    toFile p s [] = .error .unboundLocal := ⟨rfl, rfl, rfl⟩

private theorem mapM_ok {α β : Type} (f : α → PyM β) (g : α → β) (l : List α) (h : ∀ a ∈ l, f a = .ok (g a)) : l.mapM f = .ok (l.map g) := by
  induction l with
  | nil => rfl
  | cons a l ih =>
    rw [List.mapM_cons, h a (by simp), ih (fun b hb => h b (by simp [hb]))]
    rfl

/-- **C34** Encoding a document to indices and decoding gives its tokens restricted to the vocabulary, in order. -/
theorem C34_list_roundtrip (p : VZ.Params) (s : VZ.State) (hc : Coding s) (doc : Str) :
    decodeList s ((encodeList p s doc).map (fun i : Nat => (i : Int))) = .ok ((p.tokenizer doc).filter (fun t => decide (t ∈ s.idx2vocab))) := by
  unfold decodeList encodeList
  generalize p.tokenizer doc = ts
  have hin : ∀ t, t ∈ s.idx2vocab → ∃ i, Dict.get? s.vocabulary t = some i := by
    intro t ht
    obtain ⟨i, hi⟩ := List.mem_iff_getElem?.1 ht
    exact ⟨i, (hc.inv t i).2 hi⟩
  induction ts with
  | nil => rfl
  | cons t ts ih =>
    by_cases ht : t ∈ s.idx2vocab
    · obtain ⟨i, hi⟩ := hin t ht
      have hi' := (hc.inv t i).1 hi
      have hlt : i < s.nVocabs := by
        rw [hc.size]; exact (List.getElem?_eq_some_iff.1 hi').1
      rw [List.filterMap_cons, hi, List.map_cons, List.filter_cons, if_pos (by simp; omega), List.mapM_cons]
      have : getItem s.idx2vocab (Int.toNat (i : Int)) = .ok t := by
        unfold getItem; rw [Int.toNat_natCast, hi']
      rw [this, ih, List.filter_cons, if_pos (by simpa using ht)]
      rfl
    · have hn : Dict.get? s.vocabulary t = none := by
        cases hg : Dict.get? s.vocabulary t with
        | none => rfl
        | some i => exact absurd (List.mem_of_getElem? ((hc.inv t i).1 hg)) ht
      rw [List.filterMap_cons, hn, List.filter_cons, if_neg (by simpa using ht)]
      exact ih

example : Coding ⟨[(['a'], 0), (['b'], 1)], [['a'], ['b']], 2⟩ := by
  obtain ⟨_, _, c⟩ := coding_enum [['a'], ['b']] (by decide)
  exact ⟨by decide, rfl, c⟩

/-- **C34** `decode_from_list` raises for no list of integers: indices out of range are skipped. -/
theorem C34_decode_total (s : VZ.State) (hc : Coding s) (ids : List Int) :
    decodeList s ids = .ok (ids.filterMap (fun i => if 0 ≤ i then s.idx2vocab[i.toNat]? else none)) := by
  unfold decodeList
  induction ids with
  | nil => rfl
  | cons i ids ih =>
    by_cases h : 0 ≤ i ∧ i < (s.nVocabs : Int)
    · have hlt : i.toNat < s.idx2vocab.length := by rw [← hc.size]; omega
      have e : s.idx2vocab[i.toNat]? = some s.idx2vocab[i.toNat] := List.getElem?_eq_getElem hlt
      rw [List.filter_cons, if_pos (by simpa using h), List.mapM_cons, ih, List.filterMap_cons, if_pos h.1, e]
      unfold getItem; rw [e]; rfl
    · rw [List.filter_cons, if_neg (by simpa using h), ih, List.filterMap_cons]
      by_cases h0 : 0 ≤ i
      · rw [if_pos h0, List.getElem?_eq_none (by rw [← hc.size]; omega)]
      · rw [if_neg h0]

/-! ### bags of words -/

/-- the dictionary with its keys translated by a partial function -/
private def trans (f : Str → Option Nat) (d : Dict Str Nat) : Dict Nat Nat := d.filterMap (fun e => (f e.1).map (fun i => (i, e.2)))

private theorem get?_trans (f : Str → Option Nat) (inj : ∀ a b i, f a = some i → f b = some i → a = b) (d : Dict Str Nat) (k : Str) (i : Nat)
    (hk : f k = some i) : Dict.get? (trans f d) i = Dict.get? d k := by
  induction d with
  | nil => rfl
  | cons e d ih =>
    obtain ⟨a, n⟩ := e
    unfold trans at ih ⊢
    rw [List.filterMap_cons]
    cases hf : f a with
    | none =>
      simp only [Option.map_none]
      rw [ih, Dict.get?_cons, if_neg]; rintro rfl; rw [hf] at hk; cases hk
    | some j =>
      simp only [Option.map_some]
      rw [Dict.get?_cons, Dict.get?_cons, ih]
      by_cases h : a = k
      · subst h; rw [hf] at hk; cases hk; simp
      · rw [if_neg h, if_neg]; rintro rfl; exact h (inj a k j hf hk)

private theorem trans_set (f : Str → Option Nat) (inj : ∀ a b i, f a = some i → f b = some i → a = b) (d : Dict Str Nat) (k : Str) (v : Nat) :
    trans f (Dict.set d k v) = match f k with | some i => Dict.set (trans f d) i v | none => trans f d := by
  induction d with
  | nil => cases hf : f k <;> simp [trans, Dict.set, hf]
  | cons e d ih =>
    obtain ⟨a, n⟩ := e
    simp only [Dict.set]
    by_cases h : a = k
    · subst h
      rw [if_pos rfl]
      cases hf : f a with
      | none => simp [trans, hf]
      | some i => simp [trans, hf, Dict.set]
    · rw [if_neg h]
      unfold trans at ih ⊢
      rw [List.filterMap_cons, ih, List.filterMap_cons]
      cases ha : f a with
      | none => rfl
      | some j =>
        simp only [Option.map_some]
        cases hk : f k with
        | none => rfl
        | some i =>
          simp only [Dict.set]
          rw [if_neg]; rintro rfl; exact h (inj a k j ha hk)

private theorem counter_trans (f : Str → Option Nat) (inj : ∀ a b i, f a = some i → f b = some i → a = b) (ts : List Str) :
    Dict.counter (ts.filterMap f) = trans f (Dict.counter ts) := by
  unfold Dict.counter
  have : ∀ (ts : List Str) (d : Dict Str Nat), (ts.filterMap f).foldl (fun d x => Dict.add d x 1) (trans f d) =
      trans f (ts.foldl (fun d x => Dict.add d x 1) d) := by
    intro ts
    induction ts with
    | nil => intro d; rfl
    | cons t ts ih =>
      intro d
      rw [List.foldl_cons, ← ih, List.filterMap_cons]
      cases hf : f t with
      | none => rw [Dict.add, trans_set f inj, hf]
      | some i =>
        simp only [List.foldl_cons]
        rw [show Dict.add d t 1 = Dict.set d t (Dict.getD d t 0 + 1) from rfl, trans_set f inj, hf]
        simp only [Dict.add, Dict.getD, get?_trans f inj d t i hf]
  exact this ts []

private theorem bow_eq (p : VZ.Params) (s : VZ.State) (hc : Coding s) (doc : Str) :
    encodeBow p s doc = Dict.counter ((p.tokenizer doc).filterMap (fun t => Dict.get? s.vocabulary t)) := by
  have inj : ∀ a b i, Dict.get? s.vocabulary a = some i → Dict.get? s.vocabulary b = some i → a = b := by
    intro a b i ha hb
    have h1 := (hc.inv a i).1 ha
    have h2 := (hc.inv b i).1 hb
    rw [h1] at h2; exact Option.some.inj h2
  rw [counter_trans _ inj]
  unfold encodeBow
  exact Dict.ofList_eq_self _ (by
    have := Dict.wf_counter ((p.tokenizer doc).filterMap (fun t => Dict.get? s.vocabulary t))
    rw [counter_trans _ inj] at this; exact this)

private theorem get?_bow (p : VZ.Params) (s : VZ.State) (hc : Coding s) (doc : Str) (i n : Nat) :
    Dict.get? (encodeBow p s doc) i = some n ↔ ∃ t, s.idx2vocab[i]? = some t ∧ t ∈ p.tokenizer doc ∧ n = (p.tokenizer doc).count t := by
  have inj : ∀ a b i, Dict.get? s.vocabulary a = some i → Dict.get? s.vocabulary b = some i → a = b := by
    intro a b i ha hb
    have h1 := (hc.inv a i).1 ha
    have h2 := (hc.inv b i).1 hb
    rw [h1] at h2; exact Option.some.inj h2
  have hb : encodeBow p s doc = trans (fun t => Dict.get? s.vocabulary t) (Dict.counter (p.tokenizer doc)) := by
    rw [bow_eq p s hc, counter_trans _ inj]
  have hcount : ∀ t, (p.tokenizer doc).countP (fun x => decide (x = t)) = (p.tokenizer doc).count t := by
    intro t; rw [List.count_eq_countP]; apply List.countP_congr; intro x _; simp
  have hget : ∀ t, Dict.get? (Dict.counter (p.tokenizer doc)) t = if t ∈ p.tokenizer doc then some ((p.tokenizer doc).count t) else none := by
    intro t
    unfold Dict.counter
    rw [Dict.get?_foldl_inc, hcount]
    by_cases h : t ∈ p.tokenizer doc
    · rw [if_pos h, if_pos (List.count_pos_iff.2 h)]
    · rw [if_neg h, if_neg (by rw [List.count_pos_iff]; exact h)]
  constructor
  · intro h
    have hm := Dict.mem_of_get? h
    rw [hb] at hm
    unfold trans at hm
    obtain ⟨⟨t, m⟩, he, hf⟩ := List.mem_filterMap.1 hm
    dsimp only at hf
    cases hv : Dict.get? s.vocabulary t with
    | none => rw [hv] at hf; simp at hf
    | some j =>
      rw [hv] at hf; simp at hf
      obtain ⟨rfl, rfl⟩ := hf
      have := Dict.get?_of_mem (Dict.wf_counter _) he
      rw [hget] at this
      split at this
      · rename_i ht; exact ⟨t, (hc.inv t j).1 hv, ht, (Option.some.inj this).symm⟩
      · cases this
  · rintro ⟨t, ht, hm, rfl⟩
    rw [hb, get?_trans _ inj _ t i ((hc.inv t i).2 ht), hget, if_pos hm]

/-- **C34** `decode_from_bow(encode_a_doc_to_bow(d))` maps each vocabulary token of `d` to its number of occurrences in `d`, and
    nothing else. -/
theorem C34_bow_roundtrip (p : VZ.Params) (s : VZ.State) (hc : Coding s) (doc : Str) :
    ∃ d, decodeBow s ((encodeBow p s doc).map (fun e => ((e.1 : Int), e.2))) = .ok d ∧ d.WF ∧
      ∀ t, Dict.get? d t = if t ∈ s.idx2vocab ∧ t ∈ p.tokenizer doc then some ((p.tokenizer doc).count t) else none := by
  have hlt : ∀ e ∈ encodeBow p s doc, e.1 < s.idx2vocab.length := by
    rintro ⟨i, n⟩ he
    have hwf : Dict.WF (encodeBow p s doc) := by rw [bow_eq p s hc]; exact Dict.wf_counter _
    obtain ⟨t, ht, _⟩ := (get?_bow p s hc doc i n).1 (Dict.get?_of_mem hwf he)
    exact (List.getElem?_eq_some_iff.1 ht).1
  have hwf : Dict.WF (encodeBow p s doc) := by rw [bow_eq p s hc]; exact Dict.wf_counter _
  generalize hbow : encodeBow p s doc = bow at hlt hwf
  have hfil : (bow.map (fun e => ((e.1 : Int), e.2))).filter (fun e : Int × Nat => decide (0 ≤ e.1 ∧ e.1 < (s.nVocabs : Int))) =
      bow.map (fun e => ((e.1 : Int), e.2)) := by
    rw [List.filter_eq_self]
    intro e he
    obtain ⟨e', he', rfl⟩ := List.mem_map.1 he
    have := hlt e' he'
    rw [← hc.size] at this
    simp; omega
  have hmap : (bow.map (fun e => ((e.1 : Int), e.2))).mapM (decodeEntry s) = .ok (bow.map (fun e => (s.idx2vocab.getD e.1 [], e.2))) := by
    rw [mapM_ok _ (fun e : Int × Nat => (s.idx2vocab.getD e.1.toNat [], e.2)), List.map_map]
    · rfl
    · intro e he
      obtain ⟨e', he', rfl⟩ := List.mem_map.1 he
      have := hlt e' he'
      unfold decodeEntry getItem
      simp only [Int.toNat_natCast]
      rw [List.getElem?_eq_getElem this, List.getD_eq_getElem?_getD, List.getElem?_eq_getElem this]
      rfl
  refine ⟨Dict.ofList (bow.map (fun e => (s.idx2vocab.getD e.1 [], e.2))), ?_, Dict.wf_ofList _, ?_⟩
  · unfold decodeBow
    rw [hfil, hmap]
  · have hwf2 : Dict.WF (bow.map (fun e => (s.idx2vocab.getD e.1 [], e.2))) := by
      unfold Dict.WF Dict.keys
      rw [List.map_map, List.nodup_iff_pairwise_ne, List.pairwise_map]
      have := hwf
      unfold Dict.WF Dict.keys at this
      rw [List.nodup_iff_pairwise_ne, List.pairwise_map] at this
      refine List.Pairwise.imp_of_mem ?_ this
      intro a b ha hb hab h
      have h1 := hlt a ha
      have h2 := hlt b hb
      simp only [Function.comp] at h
      rw [List.getD_eq_getElem?_getD, List.getD_eq_getElem?_getD, List.getElem?_eq_getElem h1, List.getElem?_eq_getElem h2] at h
      exact hab ((List.Nodup.getElem_inj_iff hc.nodup).1 h)
    intro t
    rw [Dict.get?_map_ofList _ hwf2]
    have key : ∀ n, Dict.get? (bow.map (fun e => (s.idx2vocab.getD e.1 [], e.2))) t = some n ↔
        t ∈ s.idx2vocab ∧ t ∈ p.tokenizer doc ∧ n = (p.tokenizer doc).count t := by
      intro n
      rw [← Dict.mem_iff_get? hwf2]
      constructor
      · intro hm
        obtain ⟨⟨i, m⟩, he, heq⟩ := List.mem_map.1 hm
        have hi := hlt _ he
        have hg := Dict.get?_of_mem hwf he
        rw [← hbow] at hg
        obtain ⟨t', ht', hm', hn⟩ := (get?_bow p s hc doc i m).1 hg
        simp only [Prod.mk.injEq] at heq
        rw [List.getD_eq_getElem?_getD, ht'] at heq
        simp at heq
        obtain ⟨rfl, rfl⟩ := heq
        exact ⟨List.mem_of_getElem? ht', hm', hn⟩
      · rintro ⟨h1, h2, rfl⟩
        obtain ⟨i, hi⟩ := List.mem_iff_getElem?.1 h1
        have hg := (get?_bow p s hc doc i _).2 ⟨t, hi, h2, rfl⟩
        rw [hbow] at hg
        exact List.mem_map.2 ⟨_, Dict.mem_of_get? hg, by simp [List.getD_eq_getElem?_getD, hi]⟩
    split
    · rename_i h; exact (key _).2 ⟨h.1, h.2, rfl⟩
    · rename_i h
      cases hg : Dict.get? (bow.map (fun e => (s.idx2vocab.getD e.1 [], e.2))) t with
      | none => rfl
      | some n => exact absurd ⟨((key n).1 hg).1, ((key n).1 hg).2.1⟩ h

/-! ## C35 -/

private theorem natStr_nonl (n : Nat) : '\n' ∉ natStr n ∧ '\r' ∉ natStr n := by
  have := (intStr_word (n : Int)).2
  constructor
  · intro h
    have h1 : isSpace '\n' = false := this _ h
    exact absurd h1 (by decide)
  · intro h
    have h1 : isSpace '\r' = false := this _ h
    exact absurd h1 (by decide)

/-- a line without its terminator -/
private def line3' (a b c : Nat) : Str := natStr a ++ ' ' :: natStr b ++ ' ' :: natStr c

private theorem line3'_nonl (a b c : Nat) : '\n' ∉ line3' a b c ∧ '\r' ∉ line3' a b c := by
  unfold line3'
  have h1 := natStr_nonl a; have h2 := natStr_nonl b; have h3 := natStr_nonl c
  constructor
  · simp only [List.mem_append, List.mem_cons, not_or]
    exact ⟨⟨h1.1, by decide, h2.1⟩, by decide, h3.1⟩
  · simp only [List.mem_append, List.mem_cons, not_or]
    exact ⟨⟨h1.2, by decide, h2.2⟩, by decide, h3.2⟩

private theorem line3_eq (a b c : Nat) : line3 a b c = line3' a b c ++ ['\n'] := by simp [line3, line3']

/-- the number of entries declared in a file is the number of entries of the matrix -/
theorem nElements_eq (p : VZ.Params) (s : VZ.State) (hc : Coding s) (docs : List Str) :
    nElements p s docs = (docs.zipIdx.flatMap (fun d => (encodeBow p s d.1).map (fun e => (d.2, e.1, e.2)))).length := by
  rw [List.length_flatMap]
  unfold nElements
  have : ∀ (ds : List Str) (k : Nat), (ds.map (fun doc => ((Dict.counter (p.tokenizer doc)).filter (fun e => Dict.has s.vocabulary e.1)).length)) =
      (ds.zipIdx k).map (fun d => ((encodeBow p s d.1).map (fun e => (d.2, e.1, e.2))).length) := by
    intro ds
    induction ds with
    | nil => intro k; rfl
    | cons d ds ih =>
      intro k
      rw [List.map_cons, List.zipIdx_cons, List.map_cons, ih (k + 1)]
      congr 1
      have inj : ∀ a b i, Dict.get? s.vocabulary a = some i → Dict.get? s.vocabulary b = some i → a = b := by
        intro a b i ha hb
        have h1 := (hc.inv a i).1 ha
        have h2 := (hc.inv b i).1 hb
        rw [h1] at h2; exact Option.some.inj h2
      rw [List.length_map, bow_eq p s hc, counter_trans _ inj]
      unfold trans
      generalize Dict.counter (p.tokenizer d) = c
      induction c with
      | nil => rfl
      | cons e c ihc =>
        rw [List.filter_cons, List.filterMap_cons]
        unfold Dict.has
        cases hv : Dict.get? s.vocabulary e.1 with
        | none => simpa [Dict.has] using ihc
        | some i => simpa [Dict.has] using ihc
  rw [this docs 0]

/-- the lines of a written file that has only its header -/
theorem fileLines_header (a b c : Nat) :
    fileLines ("%%MatrixMarket matrix coordinate integer general\n".toList ++ "%\n".toList ++ line3 a b c) =
      ["%%MatrixMarket matrix coordinate integer general\n".toList, "%\n".toList, natStr a ++ ' ' :: natStr b ++ ' ' :: natStr c ++ ['\n']] := by
  have hall : "%%MatrixMarket matrix coordinate integer general\n".toList ++ "%\n".toList ++ line3 a b c =
      ["%%MatrixMarket matrix coordinate integer general".toList, "%".toList, line3' a b c].flatMap (fun l => l ++ ['\n']) := by
    rw [line3_eq]
    simp only [List.flatMap_cons, List.flatMap_nil, List.append_nil]
    have h1 : "%%MatrixMarket matrix coordinate integer general\n".toList = "%%MatrixMarket matrix coordinate integer general".toList ++ ['\n'] := by decide
    have h2 : "%\n".toList = "%".toList ++ ['\n'] := by decide
    rw [h1, h2]
    simp only [List.append_assoc]
  rw [hall, fileLines_written]
  · rfl
  · intro l hl
    simp only [List.mem_cons, List.not_mem_nil, or_false] at hl
    rcases hl with rfl | rfl | rfl
    · decide
    · decide
    · exact line3'_nonl _ _ _

/-- **C35** `to_file` raises exactly when `transform` does (no document). Otherwise the lines of the file are the two fixed header
    lines, the sizes `n_docs n_vocabs n_elements` with `n_elements` the number of entry lines, and one line `doc+1 term+1 count` for
    each entry of the matrix of `transform`, in its order. No cell occurs twice, all indices are inside the matrix, and the entries
    of document `i` are exactly its vocabulary tokens with their number of occurrences. -/
theorem C35_file_matches_transform (p : VZ.Params) (s : VZ.State) (hc : Coding s) (docs : List Str) (hne : docs ≠ []) :
    ∃ text entries, toFile p s docs = .ok text ∧ transform p s docs = .ok ((docs.length, s.nVocabs), entries) ∧
      fileLines text = "%%MatrixMarket matrix coordinate integer general\n".toList :: "%\n".toList ::
        (natStr docs.length ++ ' ' :: natStr s.nVocabs ++ ' ' :: natStr entries.length ++ ['\n']) ::
        entries.map (fun e => natStr (e.1 + 1) ++ ' ' :: natStr (e.2.1 + 1) ++ ' ' :: natStr e.2.2 ++ ['\n']) ∧
      (entries.map (fun e => (e.1, e.2.1))).Nodup ∧
      (∀ e ∈ entries, e.1 < docs.length ∧ e.2.1 < s.nVocabs) ∧
      (∀ i j n, (i, j, n) ∈ entries ↔ ∃ doc t, docs[i]? = some doc ∧ s.idx2vocab[j]? = some t ∧ t ∈ p.tokenizer doc ∧
        n = (p.tokenizer doc).count t) := by
  have hwf : ∀ doc, Dict.WF (encodeBow p s doc) := fun doc => by rw [bow_eq p s hc]; exact Dict.wf_counter _
  generalize hE : docs.zipIdx.flatMap (fun d => (encodeBow p s d.1).map (fun e => (d.2, e.1, e.2))) = entries
  have hmem : ∀ i j n, (i, j, n) ∈ entries ↔ ∃ doc t, docs[i]? = some doc ∧ s.idx2vocab[j]? = some t ∧ t ∈ p.tokenizer doc ∧
        n = (p.tokenizer doc).count t := by
    intro i j n
    rw [← hE, List.mem_flatMap]
    constructor
    · rintro ⟨⟨doc, i'⟩, hd, he⟩
      obtain ⟨⟨j', n'⟩, hm, heq⟩ := List.mem_map.1 he
      simp only [Prod.mk.injEq] at heq
      obtain ⟨rfl, rfl, rfl⟩ := heq
      obtain ⟨t, h1, h2, h3⟩ := (get?_bow p s hc doc j' n').1 (Dict.get?_of_mem (hwf doc) hm)
      exact ⟨doc, t, List.mem_zipIdx_iff_getElem?.1 hd, h1, h2, h3⟩
    · rintro ⟨doc, t, h0, h1, h2, h3⟩
      exact ⟨(doc, i), List.mem_zipIdx_iff_getElem?.2 h0, List.mem_map.2 ⟨(j, n), Dict.mem_of_get? ((get?_bow p s hc doc j n).2 ⟨t, h1, h2, h3⟩), rfl⟩⟩
  have hlen : nElements p s docs = entries.length := by rw [← hE]; exact nElements_eq p s hc docs
  refine ⟨_, entries, by unfold toFile; rw [if_neg hne], by unfold transform; rw [if_neg hne, hE], ?_, ?_, ?_, hmem⟩
  · have hbody : docs.zipIdx.flatMap (fun d =>
        (Dict.counter ((p.tokenizer d.1).filterMap (fun t => Dict.get? s.vocabulary t))).flatMap (fun e => line3 (d.2 + 1) (e.1 + 1) e.2)) =
        (entries.map (fun e => line3' (e.1 + 1) (e.2.1 + 1) e.2.2)).flatMap (fun l => l ++ ['\n']) := by
      rw [← hE, List.flatMap_map]
      generalize docs.zipIdx = ds
      induction ds with
      | nil => rfl
      | cons d ds ih =>
        rw [List.flatMap_cons, ih, List.flatMap_cons, List.flatMap_append]
        congr 1
        rw [← bow_eq p s hc, List.flatMap_map]
        induction encodeBow p s d.1 with
        | nil => rfl
        | cons e es ihe => rw [List.flatMap_cons, List.flatMap_cons, ihe, line3_eq]
    rw [hbody, hlen, line3_eq]
    have hall : "%%MatrixMarket matrix coordinate integer general\n".toList ++ "%\n".toList ++ (line3' docs.length s.nVocabs entries.length ++ ['\n']) ++
        (entries.map (fun e => line3' (e.1 + 1) (e.2.1 + 1) e.2.2)).flatMap (fun l => l ++ ['\n']) =
        ("%%MatrixMarket matrix coordinate integer general".toList :: "%".toList :: line3' docs.length s.nVocabs entries.length ::
          entries.map (fun e => line3' (e.1 + 1) (e.2.1 + 1) e.2.2)).flatMap (fun l => l ++ ['\n']) := by
      simp only [List.flatMap_cons]
      have h1 : "%%MatrixMarket matrix coordinate integer general\n".toList = "%%MatrixMarket matrix coordinate integer general".toList ++ ['\n'] := by decide
      have h2 : "%\n".toList = "%".toList ++ ['\n'] := by decide
      rw [h1, h2]
      simp only [List.append_assoc]
    rw [hall, fileLines_written]
    · simp only [List.map_cons, List.map_map]
      congr 1
    · intro l hl
      simp only [List.mem_cons, List.mem_map] at hl
      rcases hl with rfl | rfl | rfl | ⟨e, _, rfl⟩
      · decide
      · decide
      · exact line3'_nonl _ _ _
      · exact line3'_nonl _ _ _
  · rw [← hE]
    have : ∀ (ds : List Str) (k : Nat), (((ds.zipIdx k).flatMap (fun d => (encodeBow p s d.1).map (fun e => (d.2, e.1, e.2)))).map
        (fun e => (e.1, e.2.1))).Nodup ∧ ∀ x ∈ ((ds.zipIdx k).flatMap (fun d => (encodeBow p s d.1).map (fun e => (d.2, e.1, e.2)))).map
        (fun e => (e.1, e.2.1)), k ≤ x.1 := by
      intro ds
      induction ds with
      | nil => intro k; simp
      | cons d ds ih =>
        intro k
        obtain ⟨i1, i2⟩ := ih (k + 1)
        rw [List.zipIdx_cons, List.flatMap_cons, List.map_append, List.map_map]
        constructor
        · rw [List.nodup_append]
          refine ⟨?_, i1, ?_⟩
          · have := hwf d
            unfold Dict.WF Dict.keys at this
            rw [List.nodup_iff_pairwise_ne, List.pairwise_map] at this ⊢
            exact this.imp (fun h h' => h (by simpa using h'))
          · rintro a ha b hb rfl
            obtain ⟨e, _, rfl⟩ := List.mem_map.1 ha
            have := i2 _ hb
            simp [Function.comp] at this
        · intro x hx
          rcases List.mem_append.1 hx with hx | hx
          · obtain ⟨e, _, rfl⟩ := List.mem_map.1 hx
            exact Nat.le_refl _
          · have := i2 x hx; omega
    exact (this docs 0).1
  · rintro ⟨i, j, n⟩ he
    obtain ⟨doc, t, h0, h1, _⟩ := (hmem i j n).1 he
    exact ⟨(List.getElem?_eq_some_iff.1 h0).1, by rw [hc.size]; exact (List.getElem?_eq_some_iff.1 h1).1⟩

/-- **C35** for the vocabulary of the very documents (`fit_to_file`, `fit_transform`): the hypotheses are met by every `fit`. -/
theorem C35_fit_to_file (p : VZ.Params) (docs : List Str) (hne : docs ≠ []) :
    ∃ s text entries, fit p docs = .ok s ∧ toFile p s docs = .ok text ∧ transform p s docs = .ok ((docs.length, s.nVocabs), entries) ∧
      (fileLines text).length = entries.length + 3 := by
  obtain ⟨s, e, hc, _⟩ := C34_bijection p docs hne
  obtain ⟨text, entries, h1, h2, h3, _⟩ := C35_file_matches_transform p s hc docs hne
  exact ⟨s, text, entries, e, h1, h2, by rw [h3]; simp⟩

/-! ## C36 -/

/-- reading a written term back -/
theorem vz_strip_line (t : Str) (h3 : strip t = t) : strip (t ++ ['\n']) = t := by
  have : rstrip (lstrip (t ++ ['\n'])) = t := by
    by_cases he : t = []
    · subst he; decide
    · have hl : lstrip (t ++ ['\n']) = lstrip t ++ ['\n'] := by
        unfold lstrip
        rw [List.dropWhile_append, if_neg]
        intro hz
        have : strip t = [] := by
          unfold strip lstrip; rw [List.isEmpty_iff.1 hz]; rfl
        rw [h3] at this; exact he this
      rw [hl, rstrip_append_space _ _ (by intro c hc; simp at hc; subst hc; decide)]
      exact h3
  exact this

/-- **C36** `load` after `save` restores `idx2vocab`, the index of every term and `n_vocabs`, for every vocabulary of distinct terms
    that contain no line break and are unchanged by `strip()`. With or without the `.vocab` suffix in either call. -/
theorem C36_save_load (s : VZ.State) (hc : Coding s) (fname : Str) (fs : Dict Str Str)
    (hterms : ∀ t ∈ s.idx2vocab, '\n' ∉ t ∧ '\r' ∉ t ∧ strip t = t) :
    ∃ s', load fname (save s fname fs) = .ok s' ∧ Coding s' ∧ s'.idx2vocab = s.idx2vocab ∧ s'.nVocabs = s.nVocabs ∧
      ∀ t, Dict.get? s'.vocabulary t = Dict.get? s.vocabulary t := by
  have hlines : (fileLines (s.idx2vocab.flatMap (fun v => v ++ ['\n']))).map strip = s.idx2vocab := by
    rw [fileLines_written _ (fun l hl => ⟨(hterms l hl).1, (hterms l hl).2.1⟩), List.map_map]
    conv => rhs; rw [← List.map_id s.idx2vocab]
    apply List.map_congr_left
    intro t ht
    have h3 := (hterms t ht).2.2
    exact vz_strip_line t h3
  obtain ⟨c1, _, c3⟩ := coding_enum _ hc.nodup
  refine ⟨⟨s.idx2vocab.zipIdx, s.idx2vocab, s.idx2vocab.length⟩, ?_, ⟨hc.nodup, rfl, c3⟩, rfl, hc.size.symm, ?_⟩
  · unfold load save
    rw [Dict.get?_set, if_pos rfl]
    dsimp only
    rw [hlines, c1]
  · intro t
    cases hg : Dict.get? s.vocabulary t with
    | some i => exact (c3 t i).2 ((hc.inv t i).1 hg)
    | none =>
      show Dict.get? s.idx2vocab.zipIdx t = none
      cases hg' : Dict.get? s.idx2vocab.zipIdx t with
      | none => rfl
      | some i => rw [(hc.inv t i).2 ((c3 t i).1 hg')] at hg; cases hg

example : ∀ t ∈ [['a'], "b c".toList], '\n' ∉ t ∧ '\r' ∉ t ∧ strip t = t := by decide

/-- **C36** Loading any file, written by `save` or not: FileNotFoundError if there is none; otherwise the stripped lines become the terms, in order, their number
    `n_vocabs`, and the index of a term is that of the last line holding it. -/
theorem C36_load (fname : Str) (fs : Dict Str Str) :
    (Dict.get? fs (vocabName fname) = none → load fname fs = .error .osError) ∧
    (∀ text, Dict.get? fs (vocabName fname) = some text → ∃ s, load fname fs = .ok s ∧ s.idx2vocab = (fileLines text).map strip ∧
      s.nVocabs = (fileLines text).length ∧
      ∀ t i, Dict.get? s.vocabulary t = some i ↔ s.idx2vocab[i]? = some t ∧ ∀ j, s.idx2vocab[j]? = some t → j ≤ i) := by
  unfold load
  constructor
  · intro h; rw [h]
  · intro text h
    rw [h]
    refine ⟨_, rfl, rfl, by simp, ?_⟩
    dsimp only
    generalize (fileLines text).map strip = ts
    induction ts using List.reverseRecOn with
    | nil => intro t i; exact ⟨fun h => by (cases h), fun h => by (simp at h)⟩
    | append_singleton ts x ih =>
      intro t i
      have hz : (ts ++ [x]).zipIdx = ts.zipIdx ++ [(x, ts.length)] := by rw [List.zipIdx_append]; simp
      have ho : Dict.ofList (ts.zipIdx ++ [(x, ts.length)]) = Dict.set (Dict.ofList ts.zipIdx) x ts.length := by
        unfold Dict.ofList; rw [List.foldl_append]; rfl
      rw [hz, ho, Dict.get?_set]
      have hlt : ∀ j, ts[j]? = some t → j < ts.length := fun j hj => (List.getElem?_eq_some_iff.1 hj).1
      have happ : ∀ j, (ts ++ [x])[j]? = some t ↔ ts[j]? = some t ∨ j = ts.length ∧ x = t := by
        intro j
        rcases Nat.lt_trichotomy j ts.length with hj | hj | hj
        · rw [List.getElem?_append_left hj]
          exact ⟨.inl, fun h => h.resolve_right (fun h => by omega)⟩
        · subst hj
          rw [List.getElem?_append_right (Nat.le_refl _)]
          simp
        · rw [List.getElem?_append_right (by omega), List.getElem?_eq_none (by simp; omega)]
          exact ⟨fun h => by (cases h), fun h => by rcases h with h | h; exact absurd (hlt j h) (by omega); omega⟩
      simp only [happ]
      by_cases hx : x = t
      · rw [if_pos hx]
        constructor
        · intro h
          cases h
          refine ⟨.inr ⟨rfl, hx⟩, ?_⟩
          rintro j (h | ⟨h, _⟩)
          · exact Nat.le_of_lt (hlt j h)
          · omega
        · rintro ⟨h1, h2⟩
          have := h2 ts.length (.inr ⟨rfl, hx⟩)
          rcases h1 with h1 | ⟨h1, _⟩
          · have := hlt i h1; omega
          · rw [h1]
      · rw [if_neg hx, ih t i]
        constructor
        · rintro ⟨h1, h2⟩
          exact ⟨.inl h1, fun j h => h2 j (h.resolve_right (fun h => hx h.2))⟩
        · rintro ⟨h1, h2⟩
          exact ⟨h1.resolve_right (fun h => hx h.2), fun j h => h2 j (.inl h)⟩

/-- **C36** The file: `save(fname)` writes one file, named `fname` when that ends in `.vocab` and `fname.vocab` otherwise, with one line per term, and touches no other file;
`load(fname)` reads that same file and no other. -/
theorem C36_file (s : VZ.State) (fname : Str) (fs : Dict Str Str) :
    ∃ name, (".vocab".toList <:+ fname → name = fname) ∧ (¬ ".vocab".toList <:+ fname → name = fname ++ ".vocab".toList) ∧
      Dict.get? (save s fname fs) name = some (s.idx2vocab.flatMap (fun v => v ++ ['\n'])) ∧
      (∀ other, other ≠ name → Dict.get? (save s fname fs) other = Dict.get? fs other) ∧
      ∀ fs' : Dict Str Str, Dict.get? fs' name = Dict.get? fs name → load fname fs' = load fname fs := by
  have hl : ".vocab".toList.length = 6 := by decide
  have key : ".vocab".toList <:+ fname ↔ fname.drop (fname.length - 6) = ".vocab".toList := by
    rw [List.suffix_iff_eq_drop, hl]
    exact eq_comm
  refine ⟨vocabName fname, ?_, ?_, ?_, ?_, ?_⟩
  · intro h
    unfold vocabName
    rw [if_neg (not_not.2 (key.1 h))]
  · intro h
    unfold vocabName
    rw [if_pos (fun h' => h (key.2 h'))]
  · unfold save
    rw [Dict.get?_set, if_pos rfl]
  · intro o ho
    unfold save
    rw [Dict.get?_set, if_neg (fun h => ho h.symm)]
  · intro fs' h
    unfold load
    rw [h]

example : load "a.vocab".toList (save ⟨[(['x'], 0)], [['x']], 1⟩ "a".toList []) = .ok ⟨[(['x'], 0)], [['x']], 1⟩ ∧
    load "b".toList (save ⟨[(['x'], 0)], [['x']], 1⟩ "a".toList []) = .error .osError := by decide +kernel

/-- **C36** (limit) a term with a surrounding blank comes back stripped. -/
example : load ['v'] (save ⟨[([' ', 'a'], 0)], [[' ', 'a']], 1⟩ ['v'] []) = .ok ⟨[(['a'], 0)], [['a']], 1⟩ := by decide +kernel

end Props
