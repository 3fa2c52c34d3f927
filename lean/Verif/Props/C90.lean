import Verif.Model.Sources
import Verif.Props.C29
import Verif.Props.C34_C36
/-! C90: what kind of corpus object a trainer is given. -/
namespace Props
open Py Src

/-- every trainer that checks its corpus refuses this one with `ValueError` -/
def Refused (src : Source) : Prop :=
  (∀ p, countEojeols p src = .error .valueError) ∧
  (∀ p s k c, trainWords p s src k c = .error .valueError) ∧
  (∀ p s m, trainNouns1 p s src m = .error .valueError) ∧
  (∀ p s m, trainNouns2 p s src m = .error .valueError) ∧
  (∀ p s, trainNewsNouns p s src = .error .valueError) ∧
  (∀ s m, trainPredicators s src m = .error .valueError)

/-- every trainer that checks its corpus does with this one what it does with the list `items` -/
def TrainsAs (src : Source) (items : List Str) : Prop :=
  (∀ p, countEojeols p src = EC.construct p (some items)) ∧
  (∀ p s k c, trainWords p s src k c = WX.train p s items k c) ∧
  (∀ p s m, trainNouns1 p s src m = V1.train p s items m) ∧
  (∀ p s m, trainNouns2 p s src m = V2.trainWithSentences p s items m) ∧
  (∀ p s, trainNewsNouns p s src = NewsNoun.train p s items) ∧
  (∀ s m, trainPredicators s src m = Pred.trainWithSentences s items m)

/-- C90: an iterator is refused with `ValueError` by every trainer that checks its corpus. -/
theorem C90_refused (items : List Str) : Refused (.iterator items) :=
  ⟨fun _ => rfl, fun _ _ _ _ => rfl, fun _ _ _ => rfl, fun _ _ _ => rfl, fun _ _ => rfl, fun _ _ => rfl⟩

private theorem checked_listing {α : Type} (items : List Str) (train : List Str → PyM α) (h : train [] = .error .valueError) :
    checked (.listing items) train = train items := by
  cases items with
  | nil => exact h.symm
  | cons a l => rfl

private theorem checked_file {α : Type} (c : Corpus.Obj) (train : List Str → PyM α) :
    (0 < (Corpus.len c).1 → checked (.file c) train = train (Corpus.items (Corpus.len c).2)) ∧
    ((Corpus.len c).1 ≤ 0 → checked (.file c) train = .error .valueError) := by
  constructor
  · intro h
    have h1 : ¬ (Corpus.len c).1 < 0 := by omega
    have h2 : ¬ (Corpus.len c).1.toNat ≤ 0 := by omega
    simp only [checked, checkCorpus, Src.len, h1, if_false, h2]
    rfl
  · intro h
    by_cases h1 : (Corpus.len c).1 < 0
    · simp only [checked, checkCorpus, Src.len, h1, if_true]
    · have h2 : (Corpus.len c).1.toNat ≤ 0 := by omega
      simp only [checked, checkCorpus, Src.len, h1, if_false, h2, if_true]

/-- C90: a list is trained with as it is. -/
theorem C90_list (items : List Str) : TrainsAs (.listing items) items :=
  ⟨fun _ => checked_listing _ _ rfl, fun _ _ _ _ => checked_listing _ _ rfl, fun _ _ _ => checked_listing _ _ rfl,
    fun _ _ _ => checked_listing _ _ rfl, fun _ _ => checked_listing _ _ rfl, fun _ _ => checked_listing _ _ rfl⟩

private theorem trainsAs {src : Source} {items : List Str} (h : ∀ (α : Type) (train : List Str → PyM α), checked src train = train items) :
    TrainsAs src items := ⟨fun _ => h _ _, fun _ _ _ _ => h _ _, fun _ _ _ => h _ _, fun _ _ _ => h _ _, fun _ _ => h _ _, fun _ _ => h _ _⟩

private theorem refused {src : Source} (h : ∀ (α : Type) (train : List Str → PyM α), checked src train = .error .valueError) :
    Refused src := ⟨fun _ => h _ _, fun _ _ _ _ => h _ _, fun _ _ _ => h _ _, fun _ _ _ => h _ _, fun _ _ => h _ _, fun _ _ => h _ _⟩

/-- C90: a `DoublespaceLineCorpus` whose file has a document after the header. A corpus of documents is as good as the list of its documents. A corpus of
    sentences is as good as the list of its sentences if the documents allowed by its limits have one; otherwise it is refused with
    `ValueError`, even though going through it may yield sentences (C29). For every trainer that checks its corpus. -/
theorem C90_file (text : Str) (skip : Nat) (numDoc numSent : Int) (hne : docsOf text skip ≠ []) :
    (∃ c, Corpus.construct text numDoc numSent false skip = .ok c ∧ Corpus.items c ≠ [] ∧ TrainsAs (.file c) (Corpus.items c)) ∧
    (∃ c k, Corpus.construct text numDoc numSent true skip = .ok c ∧ Counted (docsOf text skip) numDoc numSent k ∧
      (((docsOf text skip).take k).flatMap sentencesOf ≠ [] → Corpus.items c ≠ [] ∧ TrainsAs (.file c) (Corpus.items c)) ∧
      (((docsOf text skip).take k).flatMap sentencesOf = [] → Refused (.file c))) := by
  constructor
  · obtain ⟨c, k, h1, h2, h3, h4, h5, h6⟩ := C29_documents text skip numDoc numSent hne
    refine ⟨c, h1, ?_⟩
    have hitems : Corpus.items c ≠ [] := by
      unfold Corpus.items
      have hc : c.iterSent = false ∧ c.text = text ∧ c.skipHeader = skip := by
        unfold Corpus.construct at h1
        split at h1
        · split at h1
          · cases h1; exact ⟨rfl, rfl, rfl⟩
          · cases h1
        · cases h1; exact ⟨rfl, rfl, rfl⟩
      obtain ⟨e1, e2, e3⟩ := hc
      rw [e1, e2, e3]
      have hah : Corpus.afterHeader text skip = some (docsOf text skip) := by
        unfold Corpus.afterHeader
        rw [if_neg]
        · rfl
        · intro h
          apply hne
          unfold docsOf
          exact List.drop_of_length_le (by omega)
      rw [hah]
      cases hd : docsOf text skip with
      | nil => exact absurd hd hne
      | cons a l => simp [Corpus.iterDocs]
    refine ⟨hitems, ?_⟩
    have := List.length_pos_iff.2 hitems
    exact trainsAs fun α train => by rw [(checked_file c train).1 (by omega), h6]
  · obtain ⟨c, k, h1, h2, h3, h4, h5, h6⟩ := C29_sentences text skip numDoc numSent hne
    refine ⟨c, k, h1, h2, ?_, ?_⟩
    · intro hs
      have hpos : 0 < (cutAt numSent (((docsOf text skip).take k).flatMap sentencesOf)).length := by
        have := List.length_pos_iff.2 hs
        unfold cutAt
        split
        · rw [List.length_take]; omega
        · exact this
      obtain ⟨h7, h8⟩ := h4 (Or.inl (by omega))
      refine ⟨?_, ?_⟩
      · rw [h7]; exact List.length_pos_iff.1 hpos
      · exact trainsAs fun α train => by rw [(checked_file c train).1 (by omega), h6]
    · intro hs
      refine refused fun α train => (checked_file c train).2 ?_
      rw [h3, hs]
      unfold cutAt
      split <;> simp

/-- C90: the bigram extractor takes an iterator as well as a list. -/
theorem C90_bigrams (p : BG.Params) (items : List Str) : trainBigrams p (.iterator items) = trainBigrams p (.listing items) ∧
    trainBigrams p (.listing items) = BG.train p items := ⟨rfl, rfl⟩

/-- C90: the eojeol pattern trainer raises `TypeError` for an iterator, without having trained anything. -/
theorem C90_patterns (s : EP.State) (items wl wr : List Str) :
    trainPatterns s (.listing items) wl wr = EP.train s items wl wr ∧
    (trainPatterns s (.iterator items) wl wr).2 = .error .typeError ∧
    (trainPatterns s (.iterator items) wl wr).1.lrgraph = s.lrgraph ∧ (trainPatterns s (.iterator items) wl wr).1.rlgraph = s.rlgraph := by
  have h : trainPatterns s (.iterator items) wl wr =
      (if wl = [] ∨ wr = [] then s else { s with wordsetL := some wl, wordsetR := some (wr ++ [[]]) }, .error .typeError) := rfl
  refine ⟨rfl, rfl, ?_, ?_⟩
  · rw [h]; dsimp only; split <;> rfl
  · rw [h]; dsimp only; split <;> rfl

/-- C90: `fit_transform` of a corpus that can be gone through again is `fit` and then `transform` of the same documents. An iterator is used up by `fit`:
    the call raises `UnboundLocalError`, and leaves a fitted vectorizer. -/
theorem C90_fit_transform (p : VZ.Params) (s : VZ.State) (docs : List Str) (hne : docs ≠ []) :
    ∃ s', VZ.fit p docs = .ok s' ∧ fitTransform p s (.listing docs) = (s', VZ.transform p s' docs) ∧
      fitTransform p s (.iterator docs) = (s', .error .unboundLocal) := by
  obtain ⟨s', h, _⟩ := C34_bijection p docs hne
  refine ⟨s', h, ?_, ?_⟩
  · simp only [fitTransform, iterate, h]
  · simp only [fitTransform, iterate, h]; rfl

private theorem toFile_listing (p : VZ.Params) (s : VZ.State) (docs : List Str) (hne : docs ≠ []) :
    ∃ X, VZ.toFile p s docs = .ok X ∧ toFile p s (.listing docs) = (some X, .ok ()) := ⟨_, if_neg hne, if_neg hne⟩

/-- C90: `to_file` of a list writes what C35 says. Of an iterator it writes, without any complaint, a header that declares the entries of all documents,
    and no entry: a malformed file as soon as some document has a known word. -/
theorem C90_to_file (p : VZ.Params) (s : VZ.State) (hc : Coding s) (docs : List Str) (hne : docs ≠ []) :
    (∀ text, VZ.toFile p s docs = .ok text ↔ toFile p s (.listing docs) = (some text, .ok ())) ∧
    ∃ text entries, VZ.transform p s docs = .ok ((docs.length, s.nVocabs), entries) ∧ toFile p s (.iterator docs) = (some text, .ok ()) ∧
      fileLines text = ["%%MatrixMarket matrix coordinate integer general\n".toList, "%\n".toList,
        natStr docs.length ++ ' ' :: natStr s.nVocabs ++ ' ' :: natStr entries.length ++ ['\n']] ∧
      (entries ≠ [] ↔ ∃ doc ∈ docs, ∃ t ∈ p.tokenizer doc, t ∈ s.idx2vocab) := by
  constructor
  · intro text
    obtain ⟨X, e1, e2⟩ := toFile_listing p s docs hne
    rw [e1, e2, Except.ok.injEq, Prod.mk.injEq, Option.some.injEq]
    exact ⟨fun h => ⟨h, rfl⟩, fun h => h.1⟩
  · obtain ⟨text, entries, _, h2, _, _, _, h3⟩ := C35_file_matches_transform p s hc docs hne
    have hlen : VZ.nElements p s docs = entries.length := by
      rw [nElements_eq p s hc docs]
      unfold VZ.transform at h2
      rw [if_neg hne] at h2
      cases h2; rfl
    refine ⟨_, entries, h2, if_neg hne, ?_, ?_⟩
    · rw [show (iterate (Source.iterator [])).1 = [] from rfl, List.zipIdx_nil, List.flatMap_nil, List.append_nil, hlen]
      exact fileLines_header _ _ _
    · constructor
      · intro h
        obtain ⟨⟨i, j, n⟩, he⟩ := List.exists_mem_of_ne_nil _ h
        obtain ⟨doc, t, k1, k2, k3, _⟩ := (h3 i j n).1 he
        exact ⟨doc, List.mem_of_getElem? k1, t, k3, List.mem_of_getElem? k2⟩
      · rintro ⟨doc, hd, t, ht, hv⟩ h
        obtain ⟨i, hi⟩ := List.mem_iff_getElem?.1 hd
        obtain ⟨j, hj⟩ := List.mem_iff_getElem?.1 hv
        have := (h3 i j _).2 ⟨doc, t, hi, hj, ht, rfl⟩
        rw [h] at this
        cases this

/-- C90: `fit_to_file` of a list is `fit` and then `to_file`; of an iterator it raises `UnboundLocalError`, leaves a fitted vectorizer and does not touch
    the file. -/
theorem C90_fit_to_file (p : VZ.Params) (s : VZ.State) (docs : List Str) (hne : docs ≠ []) :
    ∃ s' text, VZ.fit p docs = .ok s' ∧ VZ.toFile p s' docs = .ok text ∧ fitToFile p s (.listing docs) = (s', some text, .ok ()) ∧
      fitToFile p s (.iterator docs) = (s', none, .error .unboundLocal) := by
  obtain ⟨s', text, _, h1, h2, _⟩ := C35_fit_to_file p docs hne
  obtain ⟨s'', h3, hc, _⟩ := C34_bijection p docs hne
  obtain rfl : s' = s'' := by rw [h1] at h3; exact Except.ok.inj h3
  refine ⟨s', text, h1, h2, ?_, ?_⟩
  · have := ((C90_to_file p s' hc docs hne).1 text).1 h2
    simp only [fitToFile, iterate, h1]
    rw [this]
  · simp only [fitToFile, iterate, h1]; rfl

/-- C90: `sent_to_word_contexts_matrix` never succeeds with an iterator. -/
theorem C90_contexts (p : WC.Params) (sents order : List Str) :
    contexts p (.listing sents) order = WC.matrix p sents order ∧
    contexts p (.iterator sents) order = .error (if p.verbose then .unboundLocal else .valueError) := by
  constructor
  · unfold contexts WC.matrix
    simp only [iterate]
    by_cases h : p.verbose = true ∧ sents = []
    · simp only [h, and_self, if_true]
    · simp only [h, if_false]
      split <;> rename_i hx <;> rw [hx]
  · unfold contexts
    simp only [iterate]
    cases p.verbose <;> simp [WC.wordContext, WC.encodeAsMatrix]
    rfl

example : (toFile {} ⟨[("a".toList, 0)], ["a".toList], 1⟩ (.iterator ["a b a".toList])).1 =
    some "%%MatrixMarket matrix coordinate integer general\n%\n1 1 1\n".toList := by decide +kernel
example : (toFile {} ⟨[("a".toList, 0)], ["a".toList], 1⟩ (.listing ["a b a".toList])).1 =
    some "%%MatrixMarket matrix coordinate integer general\n%\n1 1 1\n1 1 2\n".toList := by decide +kernel
example : docsOf "a b  c\nd\n".toList 0 ≠ [] := by decide +kernel

end Props
