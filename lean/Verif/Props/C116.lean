import Verif.Model.EojeolCounter
import Verif.Model.WordExtractor
import Verif.Model.LTokenizer
import Verif.Model.MaxScore
import Verif.Model.NounTokenizer
import Verif.Model.Vectorizer
import Verif.Model.Distance
import Verif.Model.Bigram
import Verif.Proofs.MaxLR
/-!
C116: the statistics, the score tokenizers, the vectorizer and the string distances do not look inside a character: renaming the characters
of everything they are given by a one-to-one map that leaves whitespace alone renames the result and changes nothing else.
-/
namespace Props
open Py

/-- a renaming of characters: different characters stay different, whitespace stays whitespace (and nothing else becomes whitespace), and the
    blank, which some tables use as a separator, is kept -/
structure Renames (ρ : Char → Char) : Prop where
  inj : ∀ a b, ρ a = ρ b → a = b
  space : ∀ c, isSpace (ρ c) = isSpace c
  blank : ρ ' ' = ' '

/-- the same table with every key renamed -/
def keysBy {κ κ' ν : Type} (f : κ → κ') (d : Dict κ ν) : Dict κ' ν := d.map (fun e => (f e.1, e.2))

variable {ρ : Char → Char}

theorem Renames.str (h : Renames ρ) {s t : Str} (e : s.map ρ = t.map ρ) : s = t :=
  List.map_injective_iff.2 (fun _ _ => h.inj _ _) e

section dict
variable {κ κ' ν : Type} [DecidableEq κ] [DecidableEq κ'] {f : κ → κ'}

theorem get?_keysBy (hf : ∀ a b, f a = f b → a = b) (d : Dict κ ν) (k : κ) : Dict.get? (keysBy f d) (f k) = Dict.get? d k := by
  induction d with
  | nil => rfl
  | cons e d ih =>
    obtain ⟨a, v⟩ := e
    show (if f a = f k then some v else Dict.get? (keysBy f d) (f k)) = if a = k then some v else Dict.get? d k
    by_cases h : a = k
    · rw [if_pos h, if_pos (congrArg f h)]
    · rw [if_neg h, if_neg (fun e => h (hf _ _ e)), ih]

theorem set_keysBy (hf : ∀ a b, f a = f b → a = b) (d : Dict κ ν) (k : κ) (v : ν) : Dict.set (keysBy f d) (f k) v = keysBy f (Dict.set d k v) := by
  induction d with
  | nil => rfl
  | cons e d ih =>
    obtain ⟨a, w⟩ := e
    show (if f a = f k then (f a, v) :: keysBy f d else (f a, w) :: Dict.set (keysBy f d) (f k) v) =
      keysBy f (if a = k then (a, v) :: d else (a, w) :: Dict.set d k v)
    by_cases h : a = k
    · rw [if_pos h, if_pos (congrArg f h)]; rfl
    · rw [if_neg h, if_neg (fun e => h (hf _ _ e)), ih]; rfl

theorem add_keysBy (hf : ∀ a b, f a = f b → a = b) (d : Dict κ Nat) (k : κ) (n : Nat) : Dict.add (keysBy f d) (f k) n = keysBy f (Dict.add d k n) := by
  show Dict.set _ _ ((Dict.get? (keysBy f d) (f k)).getD 0 + n) = _
  rw [get?_keysBy hf, set_keysBy hf]

omit [DecidableEq κ] [DecidableEq κ'] in
theorem filter_keysBy (d : Dict κ ν) (P : κ' × ν → Bool) (Q : κ × ν → Bool) (h : ∀ e, P (f e.1, e.2) = Q e) :
    (keysBy f d).filter P = keysBy f (d.filter Q) := by
  induction d with
  | nil => rfl
  | cons e d ih =>
    show ((f e.1, e.2) :: keysBy f d).filter P = keysBy f ((e :: d).filter Q)
    rw [List.filter_cons, List.filter_cons, h, ih]
    cases Q e <;> rfl

theorem foldl_add_keysBy (hf : ∀ a b, f a = f b → a = b) (ks : List κ) (d : Dict κ Nat) :
    (ks.map f).foldl (fun d k => Dict.add d k 1) (keysBy f d) = keysBy f (ks.foldl (fun d k => Dict.add d k 1) d) := by
  induction ks generalizing d with
  | nil => rfl
  | cons k ks ih => rw [List.map_cons, List.foldl_cons, List.foldl_cons, add_keysBy hf, ih]

theorem ofList_keysBy (hf : ∀ a b, f a = f b → a = b) (l : List (κ × ν)) : Dict.ofList (keysBy f l) = keysBy f (Dict.ofList l) := by
  have : ∀ (l : List (κ × ν)) (d : Dict κ ν), (keysBy f l).foldl (fun d e => Dict.set d e.1 e.2) (keysBy f d) = keysBy f (l.foldl (fun d e => Dict.set d e.1 e.2) d) := by
    intro l
    induction l with
    | nil => intro d; rfl
    | cons e l ih =>
      intro d
      show (keysBy f l).foldl (fun d e => Dict.set d e.1 e.2) (Dict.set (keysBy f d) (f e.1) e.2) = _
      rw [set_keysBy hf, ih]; rfl
  exact this l []
end dict

/-- renaming words -/
abbrev renD {ν : Type} (ρ : Char → Char) (d : Dict Str ν) : Dict Str ν := keysBy (List.map ρ) d

theorem Renames.strs (h : Renames ρ) : ∀ a b : Str, a.map ρ = b.map ρ → a = b := fun _ _ e => h.str e

theorem splitGo_map (h : Renames ρ) (s cur : Str) : splitGo (cur.map ρ) (s.map ρ) = (splitGo cur s).map (List.map ρ) := by
  induction s generalizing cur with
  | nil =>
    simp only [List.map_nil, splitGo, List.map_eq_nil_iff]
    split <;> rfl
  | cons c cs ih =>
    simp only [List.map_cons, splitGo, h.space, List.map_eq_nil_iff]
    have h0 := ih []
    have h1 := ih (cur ++ [c])
    simp only [List.map_nil, List.map_append, List.map_cons] at h0 h1
    split
    · split
      · exact h0
      · rw [List.map_cons, h0]
    · exact h1

theorem splitWs_map (h : Renames ρ) (s : Str) : splitWs (s.map ρ) = (splitWs s).map (List.map ρ) := splitGo_map h s []

/-! ### the eojeol counter -/

/-- the counter with every eojeol renamed -/
def renEC (ρ : Char → Char) (s : EC.State) : EC.State := { s with counter := renD ρ s.counter }

theorem ec_sent (h : Renames ρ) (p : EC.Params) (hp : ∀ s, p.preprocess (s.map ρ) = (p.preprocess s).map ρ) (d : Dict Str Int) (s : Str) (i : Nat) :
    EC.countSent p (renD ρ d) (s.map ρ, i) = renD ρ (EC.countSent p d (s, i)) := by
  unfold EC.countSent
  dsimp only
  rw [hp, splitWs_map h]
  have h1 : (if EC.atCheckpoint p i then EC.filterMin p.minCount (renD ρ d) else renD ρ d) =
      renD ρ (if EC.atCheckpoint p i then EC.filterMin p.minCount d else d) := by
    split
    · exact filter_keysBy _ _ _ (fun _ => rfl)
    · rfl
  rw [h1]
  generalize (if EC.atCheckpoint p i then EC.filterMin p.minCount d else d) = d
  generalize splitWs (p.preprocess s) = ws
  induction ws generalizing d with
  | nil => rfl
  | cons w ws ih =>
    rw [List.map_cons, List.foldl_cons, List.foldl_cons, ← ih]
    congr 1
    unfold EC.addEojeol
    simp only [List.map_eq_nil_iff, List.length_map]
    split
    · rfl
    · show Dict.set _ _ ((Dict.get? (keysBy _ d) _).getD 0 + 1) = _
      rw [get?_keysBy h.strs, set_keysBy h.strs]

/-- **C116** the counter of a renamed corpus is the renamed counter -/
theorem C116_eojeol_counter (h : Renames ρ) (p : EC.Params) (hp : ∀ s, p.preprocess (s.map ρ) = (p.preprocess s).map ρ) (sents : List Str) :
    EC.construct p (some (sents.map (List.map ρ))) = (EC.construct p (some sents)).map (renEC ρ) := by
  have hf : ∀ (l : List (Str × Nat)) (d : Dict Str Int), (l.map (fun si => (si.1.map ρ, si.2))).foldl (EC.countSent p) (renD ρ d) =
      renD ρ (l.foldl (EC.countSent p) d) := by
    intro l
    induction l with
    | nil => intro d; rfl
    | cons a l ih => intro d; rw [List.map_cons, List.foldl_cons, List.foldl_cons, ec_sent h p hp, ih]
  have hz : (sents.map (List.map ρ)).zipIdx = sents.zipIdx.map (fun si => (si.1.map ρ, si.2)) := by
    rw [List.zipIdx_map]; rfl
  unfold EC.construct EC.counting EC.checkCorpus
  simp only [List.length_map]
  by_cases h0 : sents.length ≤ 0
  · simp only [if_pos h0]; rfl
  · simp only [if_neg h0]
    have := hf sents.zipIdx []
    rw [← hz] at this
    show Except.ok _ = Except.ok _
    congr 1
    have h2 : EC.filterMin p.minCount ((sents.map (List.map ρ)).zipIdx.foldl (EC.countSent p) []) =
        renD ρ (EC.filterMin p.minCount (sents.zipIdx.foldl (EC.countSent p) [])) := by
      have h3 : (sents.map (List.map ρ)).zipIdx.foldl (EC.countSent p) [] = renD ρ (sents.zipIdx.foldl (EC.countSent p) []) := this
      rw [h3]
      exact filter_keysBy _ _ _ (fun _ => rfl)
    unfold renEC
    rw [h2]
    have h4 : ∀ d : Dict Str Int, Dict.sumI (renD ρ d) = Dict.sumI d := by
      intro d
      show ((d.map _).map _).sum = (d.map _).sum
      rw [List.map_map]; rfl
    rw [h4]

/-! ### the word extractor -/

/-- the trained tables with every key renamed -/
def renWX (ρ : Char → Char) (s : WX.State) : WX.State := ⟨renD ρ s.L, renD ρ s.R, renD ρ s.aL, renD ρ s.aR⟩

theorem map_range {α β : Type} (f : α → β) (n : Nat) (g : Nat → α) : ((List.range n).map g).map f = (List.range n).map (fun i => f (g i)) := by
  rw [List.map_map]; rfl

theorem lefts_map (m : Int) (w : Str) : WX.lefts m (w.map ρ) = (WX.lefts m w).map (List.map ρ) := by
  unfold WX.lefts; rw [map_range, List.length_map]; simp only [List.map_take]
theorem rights_map (m : Int) (w : Str) : WX.rights m (w.map ρ) = (WX.rights m w).map (List.map ρ) := by
  unfold WX.rights; rw [map_range, List.length_map]; simp only [List.map_drop]
theorem properLefts_map (m : Int) (w : Str) : WX.properLefts m (w.map ρ) = (WX.properLefts m w).map (List.map ρ) := by
  unfold WX.properLefts; rw [map_range, List.length_map]; simp only [List.map_take]

theorem flatMap_map_eq {α β : Type} (g : α → List β) (fa : α → α) (fb : β → β) (hg : ∀ a, g (fa a) = (g a).map fb) (l : List α) :
    (l.map fa).flatMap g = (l.flatMap g).map fb := by
  induction l with
  | nil => rfl
  | cons a l ih => rw [List.map_cons, List.flatMap_cons, List.flatMap_cons, List.map_append, ih, hg]

theorem circular_map (ws : List Str) : WX.circular (ws.map (List.map ρ)) = (WX.circular ws).map (fun t => (t.1.map ρ, t.2.1.map ρ, t.2.2.map ρ)) := by
  unfold WX.circular
  have h1 : (ws.map (List.map ρ)).getLast?.toList ++ (ws.map (List.map ρ)).dropLast = (ws.getLast?.toList ++ ws.dropLast).map (List.map ρ) := by
    rw [List.map_append, List.getLast?_map, List.map_dropLast]
    cases ws.getLast? <;> rfl
  have h2 : (ws.map (List.map ρ)).drop 1 ++ (ws.map (List.map ρ)).head?.toList = (ws.drop 1 ++ ws.head?.toList).map (List.map ρ) := by
    rw [List.map_append, List.head?_map, List.map_drop]
    cases ws.head? <;> rfl
  rw [h1, h2, List.zip_map, List.zip_map]
  apply List.map_congr_left
  rintro ⟨a, b, c⟩ _
  rfl

theorem aLeftKeys_map (h : Renames ρ) (p : WX.Params) (ws : List Str) : WX.aLeftKeys p (ws.map (List.map ρ)) = (WX.aLeftKeys p ws).map (List.map ρ) := by
  unfold WX.aLeftKeys
  rw [circular_map]
  apply flatMap_map_eq
  rintro ⟨a, b, c⟩
  dsimp only
  rw [rights_map, List.map_cons, List.map_map, List.map_map]
  congr 1
  · simp [h.blank]
  · apply List.map_congr_left; intro s _; simp [h.blank]

theorem aRightKeys_map (h : Renames ρ) (p : WX.Params) (ws : List Str) : WX.aRightKeys p (ws.map (List.map ρ)) = (WX.aRightKeys p ws).map (List.map ρ) := by
  unfold WX.aRightKeys
  rw [circular_map]
  apply flatMap_map_eq
  rintro ⟨a, b, c⟩
  dsimp only
  rw [properLefts_map, List.map_cons, List.map_map, List.map_map]
  congr 1
  · simp [h.blank]
  · apply List.map_congr_left; intro s _; simp [h.blank]

theorem incAll_map (h : Renames ρ) (d : Dict Str Nat) (ks : List Str) : WX.incAll (renD ρ d) (ks.map (List.map ρ)) = renD ρ (WX.incAll d ks) :=
  foldl_add_keysBy h.strs ks d

theorem wx_sent (h : Renames ρ) (p : WX.Params) (n : Int) (s : WX.State) (x : Str) (i : Nat) :
    WX.trainSent p n (renWX ρ s) (x.map ρ, i) = renWX ρ (WX.trainSent p n s (x, i)) := by
  obtain ⟨L, R, aL, aR⟩ := s
  have hl : WX.leftKeys p ((splitWs x).map (List.map ρ)) = (WX.leftKeys p (splitWs x)).map (List.map ρ) := by
    unfold WX.leftKeys
    apply flatMap_map_eq
    intro w; rw [List.length_map, lefts_map]; split <;> rfl
  have hr : WX.rightKeys p ((splitWs x).map (List.map ρ)) = (WX.rightKeys p (splitWs x)).map (List.map ρ) := by
    unfold WX.rightKeys
    apply flatMap_map_eq
    intro w; rw [List.length_map, rights_map]; split <;> rfl
  unfold WX.trainSent
  dsimp only [renWX]
  rw [splitWs_map h, hl, hr, aLeftKeys_map h, aRightKeys_map h, List.length_map]
  simp only [incAll_map h]
  have hp : ∀ d : Dict Str Nat, WX.pruneMin p.minFrequency (renD ρ d) = renD ρ (WX.pruneMin p.minFrequency d) :=
    fun d => filter_keysBy _ _ _ (fun _ => rfl)
  simp only [hp]
  split
  · rfl
  · split <;> rfl

/-- **C116** training on a renamed corpus gives the renamed tables -/
theorem C116_word_training (h : Renames ρ) (p : WX.Params) (s : WX.State) (sents : List Str) (n : Int) (cumulate : Bool) :
    WX.train p (renWX ρ s) (sents.map (List.map ρ)) n cumulate = (WX.train p s sents n cumulate).map (renWX ρ) := by
  unfold WX.train
  rw [List.length_map]
  by_cases h0 : sents.length ≤ 0
  · rw [if_pos h0, if_pos h0]; rfl
  · rw [if_neg h0, if_neg h0]
    dsimp only
    have hz : (sents.map (List.map ρ)).zipIdx = sents.zipIdx.map (fun si => (si.1.map ρ, si.2)) := by
      rw [List.zipIdx_map]; rfl
    have hf : ∀ (l : List (Str × Nat)) (s : WX.State), (l.map (fun si => (si.1.map ρ, si.2))).foldl (WX.trainSent p n) (renWX ρ s) =
        renWX ρ (l.foldl (WX.trainSent p n) s) := by
      intro l
      induction l with
      | nil => intro d; rfl
      | cons a l ih => intro d; rw [List.map_cons, List.foldl_cons, List.foldl_cons, wx_sent h, ih]
    have hs : (if cumulate then renWX ρ s else {}) = renWX ρ (if cumulate then s else {}) := by cases cumulate <;> rfl
    rw [hs, hz, hf]
    generalize sents.zipIdx.foldl (WX.trainSent p n) (if cumulate then s else {}) = t
    show Except.ok _ = Except.ok _
    congr 1
    unfold renWX
    dsimp only
    congr 1 <;> exact filter_keysBy _ _ _ (fun _ => rfl)

theorem frequency_map (h : Renames ρ) (s : WX.State) (w : Str) : WX.frequency (renWX ρ s) (w.map ρ) = WX.frequency s w := by
  unfold WX.frequency Dict.getD
  dsimp only [renWX]
  rw [get?_keysBy h.strs, get?_keysBy h.strs]

theorem cohesion_map (h : Renames ρ) (s : WX.State) (w : Str) : WX.cohesion (renWX ρ s) (w.map ρ) = WX.cohesion s w := by
  unfold WX.cohesion
  rw [frequency_map h, List.length_map, ← List.map_take, ← List.map_drop]
  have hc : ∀ (d : Dict Str Nat) (n : Nat) (k : Str) (l : Nat), WX.cohesionSide (renD ρ d) n (k.map ρ) l = WX.cohesionSide d n k l := by
    intro d n k l
    unfold WX.cohesionSide
    rw [get?_keysBy h.strs]
  dsimp only [renWX]
  rw [hc, hc]

theorem foldSet_map (h : Renames ρ) {ν : Type} (l d : Dict Str ν) :
    (renD ρ l).foldl (fun d kv => Dict.set d kv.1 kv.2) (renD ρ d) = renD ρ (l.foldl (fun d kv => Dict.set d kv.1 kv.2) d) := by
  induction l generalizing d with
  | nil => rfl
  | cons e l ih =>
    show (renD ρ l).foldl _ (Dict.set (renD ρ d) (e.1.map ρ) e.2) = _
    rw [set_keysBy h.strs, ih]; rfl

theorem leftExt_map (h : Renames ρ) (s : WX.State) (w : Str) : WX.leftExt (renWX ρ s) (w.map ρ) = renD ρ (WX.leftExt s w) := by
  unfold WX.leftExt
  dsimp only [renWX]
  rw [filter_keysBy (f := List.map ρ) s.R _ (fun kv => decide ((kv.1.length : Int) - 1 = w.length ∧ kv.1.drop 1 = w)),
    filter_keysBy (f := List.map ρ) s.aR _ (fun kv => decide ((kv.1.length : Int) - 2 = w.length ∧ kv.1.drop 2 = w)), foldSet_map h]
  · intro e
    simp only [List.length_map, ← List.map_drop]
    rw [decide_eq_decide]
    exact and_congr_right (fun _ => ⟨h.str, fun e => by rw [e]⟩)
  · intro e
    simp only [List.length_map, ← List.map_drop]
    rw [decide_eq_decide]
    exact and_congr_right (fun _ => ⟨h.str, fun e => by rw [e]⟩)

theorem rightExt_map (h : Renames ρ) (s : WX.State) (w : Str) : WX.rightExt (renWX ρ s) (w.map ρ) = renD ρ (WX.rightExt s w) := by
  unfold WX.rightExt
  dsimp only [renWX]
  rw [filter_keysBy (f := List.map ρ) s.L _ (fun kv => decide ((kv.1.length : Int) - 1 = w.length ∧ kv.1.dropLast = w)),
    filter_keysBy (f := List.map ρ) s.aL _ (fun kv => decide ((kv.1.length : Int) - 2 = w.length ∧ kv.1.take (kv.1.length - 2) = w)), foldSet_map h]
  · intro e
    simp only [List.length_map, ← List.map_take]
    rw [decide_eq_decide]
    exact and_congr_right (fun _ => ⟨h.str, fun e => by rw [e]⟩)
  · intro e
    simp only [List.length_map, ← List.map_dropLast]
    rw [decide_eq_decide]
    exact and_congr_right (fun _ => ⟨h.str, fun e => by rw [e]⟩)

theorem entropy_map (d : Dict Str Nat) : WX.entropy (renD ρ d) = WX.entropy d := by
  unfold WX.entropy
  have h1 : ((renD ρ d).map (·.2)) = d.map (·.2) := by unfold renD keysBy; rw [List.map_map]; rfl
  rw [h1]
  by_cases h0 : d = []
  · subst h0; rfl
  · rw [if_neg h0, if_neg (show ¬ renD ρ d = [] from fun e => h0 (List.map_eq_nil_iff.1 e))]
    dsimp only
    unfold renD keysBy
    rw [List.map_map]; rfl

/-- **C116** every number the word extractor reports about a word (frequencies, cohesion, accessor variety, branching entropy) is reported about the
    renamed word by the extractor with renamed tables -/
theorem C116_word_scores (h : Renames ρ) (s : WX.State) (w : Str) :
    WX.frequency (renWX ρ s) (w.map ρ) = WX.frequency s w ∧ WX.cohesion (renWX ρ s) (w.map ρ) = WX.cohesion s w ∧
    WX.accessorVariety (renWX ρ s) (w.map ρ) = WX.accessorVariety s w ∧ WX.branchingEntropy (renWX ρ s) (w.map ρ) = WX.branchingEntropy s w := by
  refine ⟨frequency_map h s w, cohesion_map h s w, ?_, ?_⟩
  · unfold WX.accessorVariety
    rw [leftExt_map h, rightExt_map h]
    simp [renD, keysBy]
  · unfold WX.branchingEntropy
    rw [leftExt_map h, rightExt_map h, entropy_map, entropy_map]
    simp only [renD, keysBy, List.map_eq_nil_iff]

/-! ### the score tokenizers -/

private theorem mapM_ren {α β : Type} (g g' : α → PyM β) (fa : α → α) (fb : β → β) (hg : ∀ a, g' (fa a) = (g a).map fb) (l : List α) :
    (l.map fa).mapM g' = (l.mapM g).map (List.map fb) := by
  induction l with
  | nil => rfl
  | cons a l ih =>
    rw [List.map_cons, List.mapM_cons, List.mapM_cons, hg, ih]
    cases g a with
    | error e => rfl
    | ok x => cases l.mapM g <;> rfl

private theorem getItem_ren {α : Type} (f : α → α) (l : List α) (i : Nat) : Py.getItem (l.map f) i = (Py.getItem l i).map f := by
  unfold Py.getItem
  rw [List.getElem?_map]
  cases l[i]? <;> rfl

theorem getD_map (h : Renames ρ) {ν : Type} (d : Dict Str ν) (k : Str) (v : ν) : Dict.getD (renD ρ d) (k.map ρ) v = Dict.getD d k v := by
  show (Dict.get? (keysBy _ d) _).getD v = _
  rw [get?_keysBy h.strs]

/-- both parts renamed -/
def renPair (ρ : Char → Char) (t : Str × Str) : Str × Str := (t.1.map ρ, t.2.map ρ)

theorem tokenToLr_map (h : Renames ρ) (scores : Dict Str Rat) (ds tol : Rat) (t : Str) :
    LTok.tokenToLr (renD ρ scores) ds tol (t.map ρ) = (LTok.tokenToLr scores ds tol t).map (renPair ρ) := by
  unfold LTok.tokenToLr
  dsimp only
  rw [List.length_map]
  by_cases h2 : t.length ≤ 2
  · rw [if_pos h2, if_pos h2]; rfl
  rw [if_neg h2, if_neg h2]
  generalize List.range' 2 (t.length - 1) = rs
  have hm : (rs.map (fun e => ((t.map ρ).take e, (t.map ρ).drop e))).map (fun c : Str × Str => ((Dict.getD (renD ρ scores) c.1 ds, c.1, c.2) : LTok.Cand)) =
      ((rs.map (fun e => (t.take e, t.drop e))).map (fun c : Str × Str => ((Dict.getD scores c.1 ds, c.1, c.2) : LTok.Cand))).map
        (fun c => ((c.1, c.2.1.map ρ, c.2.2.map ρ) : LTok.Cand)) := by
    rw [List.map_map, List.map_map, List.map_map]
    apply List.map_congr_left
    intro e _
    simp only [Function.comp]
    rw [← List.map_take, ← List.map_drop, getD_map h]
  rw [hm]
  generalize (rs.map (fun e => (t.take e, t.drop e))).map (fun c : Str × Str => ((Dict.getD scores c.1 ds, c.1, c.2) : LTok.Cand)) = cs
  by_cases ht : tol > 0
  · simp only [if_pos ht]
    rw [List.map_map]
    have h1 : cs.map ((·.1) ∘ fun c : LTok.Cand => ((c.1, c.2.1.map ρ, c.2.2.map ρ) : LTok.Cand)) = cs.map (·.1) := rfl
    rw [h1]
    cases LTok.pyMax (cs.map (·.1)) with
    | error e => rfl
    | ok m =>
      show (Py.getItem (sorted _ ((cs.map _).filter _)) 0 >>= _) = ((Py.getItem (sorted _ (cs.filter _)) 0 >>= _ : PyM _)).map _
      rw [List.filter_map, sorted_map, getItem_ren]
      simp only [List.length_map]
      have h3 : ((fun c : LTok.Cand => decide (m - c.1 ≤ tol)) ∘ fun c : LTok.Cand => ((c.1, c.2.1.map ρ, c.2.2.map ρ) : LTok.Cand)) = fun c : LTok.Cand => decide (m - c.1 ≤ tol) := rfl
      rw [h3]
      cases Py.getItem (sorted _ (cs.filter _)) 0 <;> rfl
  · simp only [if_neg ht]
    rw [sorted_map, getItem_ren]
    simp only [List.length_map]
    cases Py.getItem (sorted _ cs) 0 <;> rfl

/-- **C116** `LTokenizer` with renamed scores cuts a renamed sentence at the same places -/
theorem C116_l_tokenizer (h : Renames ρ) (scores : Dict Str Rat) (ds tol : Rat) (s : Str) :
    LTok.tokenizePairs (renD ρ scores) ds tol (s.map ρ) = (LTok.tokenizePairs scores ds tol s).map (List.map (renPair ρ)) ∧
    LTok.tokenize (renD ρ scores) ds tol (s.map ρ) = (LTok.tokenize scores ds tol s).map (List.map (List.map ρ)) ∧
    LTok.tokenizeL (renD ρ scores) ds tol (s.map ρ) = (LTok.tokenizeL scores ds tol s).map (List.map (List.map ρ)) := by
  have hp : LTok.tokenizePairs (renD ρ scores) ds tol (s.map ρ) = (LTok.tokenizePairs scores ds tol s).map (List.map (renPair ρ)) := by
    unfold LTok.tokenizePairs
    rw [splitWs_map h]
    exact mapM_ren _ _ _ _ (tokenToLr_map h scores ds tol) _
  refine ⟨hp, ?_, ?_⟩
  · unfold LTok.tokenize
    rw [hp]
    cases LTok.tokenizePairs scores ds tol s with
    | error e => rfl
    | ok l =>
      show Except.ok _ = Except.ok _
      congr 1
      have : (l.map (renPair ρ)).flatMap (fun t => [t.1, t.2]) = (l.flatMap (fun t => [t.1, t.2])).map (List.map ρ) := by
        induction l with
        | nil => rfl
        | cons a l ih => rw [List.map_cons, List.flatMap_cons, ih, List.flatMap_cons, List.map_append]; rfl
      rw [this, List.filter_map]
      congr 1
      apply List.filter_congr
      intro w _
      simp
  · unfold LTok.tokenizeL
    rw [hp]
    cases LTok.tokenizePairs scores ds tol s with
    | error e => rfl
    | ok l =>
      show Except.ok _ = Except.ok _
      rw [List.map_map, List.map_map]; rfl

/-- a scored token with its word renamed -/
def renTok (ρ : Char → Char) (t : MaxScore.Tok) : MaxScore.Tok := { t with word := t.word.map ρ }

theorem slice_map (s : Str) (b e : Nat) : slice (s.map ρ) b e = (slice s b e).map ρ := by
  unfold slice; simp only [List.map_drop, List.map_take]

theorem cands_map (h : Renames ρ) (scores : Dict Str Rat) (ds : Rat) (t : Str) (m n : Nat) :
    MaxScore.candidates (renD ρ scores) ds (t.map ρ) m n = (MaxScore.candidates scores ds t m n).map (renTok ρ) := by
  unfold MaxScore.candidates
  rw [List.map_flatMap]
  congr 1
  funext b
  rw [List.map_filterMap]
  congr 1
  funext r
  dsimp only
  split
  · rfl
  · rw [slice_map, getD_map h]; rfl

theorem findGo_map (n : Nat) (l : List MaxScore.Tok) : MaxScore.findGo n (l.map (renTok ρ)) = (MaxScore.findGo n l).map (renTok ρ) := by
  induction n generalizing l with
  | zero => rfl
  | succ n ih =>
    cases l with
    | nil => rfl
    | cons c cs =>
      rw [List.map_cons, MaxScore.findGo, MaxScore.findGo, List.map_cons, List.filter_map, ih]; rfl

theorem maxscore_map (h : Renames ρ) (scores : Dict Str Rat) (m : Nat) (ds : Rat) (t : Str) :
    MaxScore.recursiveTokenize (renD ρ scores) m ds (t.map ρ) = (MaxScore.recursiveTokenize scores m ds t).map (List.map (renTok ρ)) := by
  unfold MaxScore.recursiveTokenize
  dsimp only
  rw [List.length_map]
  by_cases h2 : t.length ≤ 2
  · rw [if_pos h2, if_pos h2]; rfl
  rw [if_neg h2, if_neg h2]
  have hres : MaxScore.find (MaxScore.initCands (renD ρ scores) ds (t.map ρ) (min m t.length) t.length) =
      (MaxScore.find (MaxScore.initCands scores ds t (min m t.length) t.length)).map (renTok ρ) := by
    unfold MaxScore.find MaxScore.initCands
    rw [cands_map h, sorted_map, findGo_map, sorted_map]; rfl
  rw [hres]
  generalize MaxScore.find (MaxScore.initCands scores ds t (min m t.length) t.length) = res
  rw [List.head?_map, List.getLast?_map]
  have hi : MaxScore.addInter ds (t.map ρ) (res.map (renTok ρ)) = (MaxScore.addInter ds t res).map (renTok ρ) := by
    unfold MaxScore.addInter
    rw [← List.map_tail, List.zip_map, List.filterMap_map, List.map_filterMap]
    congr 1
    funext x
    obtain ⟨a, b⟩ := x
    simp only [Function.comp, Prod.map]
    show (if a.e = b.b then none else _) = _
    split
    · rfl
    · simp only [Option.map]
      show some (MaxScore.Tok.mk _ _ _ _ _) = some (MaxScore.Tok.mk _ _ _ _ _)
      rw [← slice_map]; rfl
  rw [hi]
  cases res.head? with
  | none => rfl
  | some a =>
    cases res.getLast? with
    | none => rfl
    | some b =>
      have hl : MaxScore.addLast (renD ρ scores) ds (t.map ρ) (renTok ρ b) = (MaxScore.addLast scores ds t b).map (renTok ρ) := by
        unfold MaxScore.addLast
        dsimp only [renTok, List.map]
        rw [← List.map_drop, getD_map h, List.length_map, List.length_map]
      have hf : MaxScore.addFirst (renD ρ scores) ds (t.map ρ) (renTok ρ a) = (MaxScore.addFirst scores ds t a).map (renTok ρ) := by
        unfold MaxScore.addFirst
        dsimp only [renTok, List.map]
        rw [slice_map, getD_map h]
      simp only [Option.map]
      rw [hl, hf]
      show Except.ok _ = Except.ok _
      congr 1
      have e1 : (renTok ρ b).e = b.e := rfl
      have e2 : (renTok ρ a).b = a.b := rfl
      rw [e1, e2]
      by_cases c1 : b.e ≠ t.length
      · by_cases c2 : a.b ≠ 0
        · simp only [if_pos c1, if_pos c2]; rw [← List.map_append, ← List.map_append, ← List.map_append, sorted_map]; rfl
        · simp only [if_pos c1, if_neg c2]; rw [← List.map_append, ← List.map_append, sorted_map]; rfl
      · by_cases c2 : a.b ≠ 0
        · simp only [if_neg c1, if_pos c2]; rw [← List.map_append, ← List.map_append, sorted_map]; rfl
        · simp only [if_neg c1, if_neg c2]; rw [← List.map_append, sorted_map]; rfl

theorem spans_map (h : Renames ρ) (scores : Dict Str Rat) (m : Nat) (ds : Rat) (s : Str) :
    MaxScore.tokenizeSpans (renD ρ scores) m ds (s.map ρ) = (MaxScore.tokenizeSpans scores m ds s).map (List.map (List.map (renTok ρ))) := by
  unfold MaxScore.tokenizeSpans
  rw [splitWs_map h]
  exact mapM_ren _ _ _ _ (maxscore_map h scores m ds) _

/-- **C116** `MaxScoreTokenizer` with renamed scores gives the same spans with the same scores -/
theorem C116_max_score (h : Renames ρ) (scores : Dict Str Rat) (m : Nat) (ds : Rat) (s : Str) :
    MaxScore.tokenizeSpans (renD ρ scores) m ds (s.map ρ) = (MaxScore.tokenizeSpans scores m ds s).map (List.map (List.map (renTok ρ))) ∧
    MaxScore.tokenize (renD ρ scores) m ds (s.map ρ) = (MaxScore.tokenize scores m ds s).map (List.map (List.map ρ)) := by
  refine ⟨spans_map h scores m ds s, ?_⟩
  unfold MaxScore.tokenize
  rw [spans_map h]
  cases MaxScore.tokenizeSpans scores m ds s with
  | error e => rfl
  | ok l =>
    show Except.ok _ = Except.ok _
    rw [List.map_flatMap, List.flatMap_map]
    congr 2
    funext x
    rw [List.map_map, List.map_map]; rfl

theorem lloop_map (n e : Nat) (l : List NounTok.Cand) :
    NounTok.lloop n e (l.map (fun c => (c.1.map ρ, c.2.1, c.2.2))) = (NounTok.lloop n e l).map (List.map ρ) := by
  induction n generalizing e l with
  | zero => rfl
  | succ n ih =>
    cases l with
    | nil => rfl
    | cons c cs =>
      obtain ⟨w, b, len⟩ := c
      rw [List.map_cons]
      show (if b ≠ e then [] else w.map ρ :: NounTok.lloop n (b + len) ((cs.map _).filter _)) = (if b ≠ e then [] else w :: NounTok.lloop n (b + len) (cs.filter _)).map _
      split
      · rfl
      · rw [List.filter_map, ih]; rfl

theorem lmax_map (isNoun isNoun' : Str → Bool) (hn : ∀ w, isNoun' (w.map ρ) = isNoun w) (t : Str) :
    NounTok.maxLengthLTokenize isNoun' (t.map ρ) = ((NounTok.maxLengthLTokenize isNoun t).1.map (List.map ρ), (NounTok.maxLengthLTokenize isNoun t).2.map ρ) := by
  have hc : NounTok.lcands isNoun' (t.map ρ) = (NounTok.lcands isNoun t).map (fun c => (c.1.map ρ, c.2.1, c.2.2)) := by
    unfold NounTok.lcands
    rw [List.map_flatMap, List.length_map]
    congr 1
    funext b
    rw [List.map_filterMap]
    congr 1
    funext e
    dsimp only
    rw [slice_map, hn]
    split <;> rfl
  unfold NounTok.maxLengthLTokenize
  dsimp only
  rw [hc, sorted_map, List.length_map, lloop_map]
  have e1 : (fun a b : NounTok.Cand => NounTok.candLe (a.1.map ρ, a.2.1, a.2.2) (b.1.map ρ, b.2.1, b.2.2)) = NounTok.candLe := rfl
  rw [e1, List.map_map, List.map_drop]
  have e2 : (List.length ∘ List.map ρ) = (List.length : Str → Nat) := by funext w; simp
  rw [e2]

/-- **C116** `NounLMatchTokenizer` with the renamed nouns finds the renamed nouns -/
theorem C116_noun_l_match (h : Renames ρ) (isNoun isNoun' : Str → Bool) (hn : ∀ w, isNoun' (w.map ρ) = isNoun w) (s : Str) (compound : Bool) :
    NounTok.tokenizeL isNoun' (s.map ρ) compound = (NounTok.tokenizeL isNoun s compound).map (List.map ρ) := by
  unfold NounTok.tokenizeL
  dsimp only
  have h1 : (splitWs (s.map ρ)).map (NounTok.maxLengthLTokenize isNoun') = ((splitWs s).map (NounTok.maxLengthLTokenize isNoun)).map (fun x => (x.1.map (List.map ρ), x.2.map ρ)) := by
    rw [splitWs_map h, List.map_map, List.map_map]
    apply List.map_congr_left
    intro t _
    exact lmax_map isNoun isNoun' hn t
  rw [h1]
  generalize (splitWs s).map (NounTok.maxLengthLTokenize isNoun) = l
  have h2 : ((l.map (fun x : List Str × Str => (x.1.map (List.map ρ), x.2.map ρ))).filter (fun t => t.1 ≠ [])).map (·.1) = ((l.filter (fun t => t.1 ≠ [])).map (·.1)).map (List.map (List.map ρ)) := by
    rw [List.filter_map, List.map_map, List.map_map]
    have : ((fun t : List Str × Str => decide (t.1 ≠ [])) ∘ fun x : List Str × Str => (x.1.map (List.map ρ), x.2.map ρ)) = fun t : List Str × Str => decide (t.1 ≠ []) := by
      funext x; simp
    rw [this]; rfl
  rw [h2]
  generalize (l.filter (fun t => t.1 ≠ [])).map (·.1) = l
  have h3 : ∀ l : List Str, (l.map (List.map ρ)).filter (fun t => decide (t ≠ [])) = (l.filter (fun t => decide (t ≠ []))).map (List.map ρ) := by
    intro l
    rw [List.filter_map]
    congr 1
    apply List.filter_congr
    intro w _
    simp
  cases compound
  · simp only [Bool.false_eq_true, if_false]
    rw [← List.map_flatten, h3]
  · simp only [if_true]
    rw [← h3, List.map_map, List.map_map]
    congr 1
    apply List.map_congr_left
    intro x _
    simp only [Function.comp]
    rw [List.map_flatten]

theorem concatGo_map (t : Str) (l : List MaxScore.Tok) (b e : Nat) (v : Rat) :
    NounTok.concatGo (t.map ρ) (l.map (renTok ρ)) b e v = (NounTok.concatGo t l b e v).map (renTok ρ) := by
  induction l generalizing b e v with
  | nil =>
    unfold NounTok.concatGo
    rw [List.map_nil]
    dsimp only
    rw [slice_map]
    split <;> rfl
  | cons w l ih =>
    rw [List.map_cons, NounTok.concatGo, NounTok.concatGo]
    show (if e = w.b then NounTok.concatGo _ _ b w.e (max v w.score) else _ :: NounTok.concatGo _ _ w.b w.e v) = _
    rw [ih, ih, slice_map]
    split <;> rfl

theorem strip_map (h : Renames ρ) (s : Str) : strip (s.map ρ) = (strip s).map ρ := by
  have hd : ∀ s : Str, (s.map ρ).dropWhile isSpace = (s.dropWhile isSpace).map ρ := by
    intro s
    rw [List.dropWhile_map]
    congr 2
    funext c
    exact h.space c
  unfold strip rstrip lstrip
  rw [hd, ← List.map_reverse, hd, ← List.map_reverse]

theorem matchEojeol_map (h : Renames ρ) (scores : Dict Str Rat) (compound : Bool) (t : Str) :
    NounTok.matchEojeol (renD ρ scores) compound (t.map ρ) = (NounTok.matchEojeol scores compound t).map (List.map (renTok ρ)) := by
  unfold NounTok.matchEojeol
  rw [spans_map h]
  cases MaxScore.tokenizeSpans scores 10 0 t with
  | error e => rfl
  | ok l =>
    show (Py.getItem (l.map (List.map (renTok ρ))) 0 >>= _) = ((Py.getItem l 0 >>= _ : PyM _)).map _
    rw [getItem_ren]
    cases Py.getItem l 0 with
    | error e => rfl
    | ok ws =>
      show Except.ok _ = Except.ok _
      congr 1
      rw [List.filter_map]
      have : ((fun w : MaxScore.Tok => decide (w.score > 0)) ∘ renTok ρ) = fun w => decide (w.score > 0) := rfl
      rw [this]
      split
      · exact concatGo_map t _ 0 0 0
      · rfl

/-- **C116** `NounMatchTokenizer` with renamed scores finds the same spans -/
theorem C116_noun_match (h : Renames ρ) (scores : Dict Str Rat) (s : Str) (compound : Bool) :
    NounTok.matchSpans (renD ρ scores) (s.map ρ) compound = (NounTok.matchSpans scores s compound).map (List.map (List.map (renTok ρ))) ∧
    NounTok.matchTokenize (renD ρ scores) (s.map ρ) compound = (NounTok.matchTokenize scores s compound).map (List.map (List.map ρ)) := by
  have hs : NounTok.matchSpans (renD ρ scores) (s.map ρ) compound = (NounTok.matchSpans scores s compound).map (List.map (List.map (renTok ρ))) := by
    unfold NounTok.matchSpans
    have : (((splitWs (s.map ρ)).map strip).filter (fun e => e ≠ [])) = (((splitWs s).map strip).filter (fun e => e ≠ [])).map (List.map ρ) := by
      rw [splitWs_map h, List.map_map]
      have h1 : (splitWs s).map (strip ∘ List.map ρ) = ((splitWs s).map strip).map (List.map ρ) := by
        rw [List.map_map]
        apply List.map_congr_left
        intro w _
        exact strip_map h w
      rw [h1, List.filter_map]
      congr 1
      apply List.filter_congr
      intro w _
      simp
    rw [this]
    exact mapM_ren _ _ _ _ (matchEojeol_map h scores compound) _
  refine ⟨hs, ?_⟩
  unfold NounTok.matchTokenize
  rw [hs]
  cases NounTok.matchSpans scores s compound with
  | error e => rfl
  | ok l =>
    show Except.ok _ = Except.ok _
    congr 1
    have : ((l.map (List.map (renTok ρ))).flatten.map (·.word)) = (l.flatten.map (·.word)).map (List.map ρ) := by
      rw [← List.map_flatten, List.map_map, List.map_map]; rfl
    rw [this, List.filter_map]
    congr 1
    apply List.filter_congr
    intro w _
    simp

/-! ### the vectorizer, the bigrams and the distances -/

/-- the vocabulary with every term renamed -/
def renVZ (ρ : Char → Char) (s : VZ.State) : VZ.State := ⟨renD ρ s.vocabulary, s.idx2vocab.map (List.map ρ), s.nVocabs⟩

theorem counter_map {α β : Type} [DecidableEq α] [DecidableEq β] {f : α → β} (hf : ∀ a b, f a = f b → a = b) (l : List α) :
    Dict.counter (l.map f) = keysBy f (Dict.counter l) := foldl_add_keysBy hf l []

theorem docCounts_map (h : Renames ρ) (p : VZ.Params) (hp : ∀ s, p.tokenizer (s.map ρ) = (p.tokenizer s).map (List.map ρ)) (docs : List Str) :
    VZ.docCounts p (docs.map (List.map ρ)) = renD ρ (VZ.docCounts p docs) := by
  unfold VZ.docCounts
  have hin : ∀ (l : Dict Str Nat) (d : Dict Str Nat), (renD ρ l).foldl (fun df e => Dict.add df e.1 1) (renD ρ d) = renD ρ (l.foldl (fun df e => Dict.add df e.1 1) d) := by
    intro l
    induction l with
    | nil => intro d; rfl
    | cons e l ih =>
      intro d
      show (renD ρ l).foldl _ (Dict.add (renD ρ d) (e.1.map ρ) 1) = _
      rw [add_keysBy h.strs, ih]; rfl
  have : ∀ (docs : List Str) (d : Dict Str Nat),
      (docs.map (List.map ρ)).foldl (fun df doc => (Dict.counter (p.tokenizer doc)).foldl (fun df e => Dict.add df e.1 1) df) (renD ρ d) =
      renD ρ (docs.foldl (fun df doc => (Dict.counter (p.tokenizer doc)).foldl (fun df e => Dict.add df e.1 1) df) d) := by
    intro docs
    induction docs with
    | nil => intro d; rfl
    | cons x docs ih =>
      intro d
      rw [List.map_cons, List.foldl_cons, List.foldl_cons, ← ih, hp, counter_map h.strs, hin]
  exact this docs []

/-- **C116** the vectorizer fitted on renamed documents has the renamed vocabulary, in the same order -/
theorem C116_vectorizer_fit (h : Renames ρ) (p : VZ.Params) (hp : ∀ s, p.tokenizer (s.map ρ) = (p.tokenizer s).map (List.map ρ)) (docs : List Str) :
    VZ.fit p (docs.map (List.map ρ)) = (VZ.fit p docs).map (renVZ ρ) := by
  unfold VZ.fit
  dsimp only
  rw [docCounts_map h p hp]
  by_cases h0 : docs = []
  · subst h0; rfl
  rw [if_neg h0, if_neg (fun e => h0 (List.map_eq_nil_iff.1 e)), List.length_map]
  generalize VZ.docCounts p docs = d
  generalize ⌊((docs.length : Nat) : Rat) * p.minDf⌋ = lo
  generalize ⌊((docs.length : Nat) : Rat) * p.maxDf⌋ = hi
  have hv : ((renD ρ d).filter (fun e => decide (p.minTf ≤ (e.2 : Int) ∧ (e.2 : Int) ≤ p.maxTf))).filter
        (fun e => Dict.has ((renD ρ d).filter (fun e => decide (lo ≤ ((e : Str × Nat).2 : Int) ∧ (e.2 : Int) ≤ hi))) e.1) =
      renD ρ ((d.filter (fun e => decide (p.minTf ≤ (e.2 : Int) ∧ (e.2 : Int) ≤ p.maxTf))).filter
        (fun e => Dict.has (d.filter (fun e => decide (lo ≤ ((e : Str × Nat).2 : Int) ∧ (e.2 : Int) ≤ hi))) e.1)) := by
    rw [filter_keysBy (f := List.map ρ) d (fun e => decide (p.minTf ≤ (e.2 : Int) ∧ (e.2 : Int) ≤ p.maxTf)) (fun e => decide (p.minTf ≤ (e.2 : Int) ∧ (e.2 : Int) ≤ p.maxTf)) (fun _ => rfl),
      filter_keysBy (f := List.map ρ) d _ (fun e => decide (lo ≤ ((e : Str × Nat).2 : Int) ∧ (e.2 : Int) ≤ hi)) (fun _ => rfl)]
    apply filter_keysBy
    intro e
    show (Dict.get? (keysBy (List.map ρ) _) (e.1.map ρ)).isSome = (Dict.get? _ e.1).isSome
    rw [get?_keysBy h.strs]
  rw [hv]
  generalize (d.filter (fun e => decide (p.minTf ≤ (e.2 : Int) ∧ (e.2 : Int) ≤ p.maxTf))).filter
        (fun e => Dict.has (d.filter (fun e => decide (lo ≤ ((e : Str × Nat).2 : Int) ∧ (e.2 : Int) ≤ hi))) e.1) = v
  have ho : (VZ.ordered (renD ρ v)).map (·.1) = ((VZ.ordered v).map (·.1)).map (List.map ρ) := by
    unfold VZ.ordered renD keysBy
    rw [sorted_map, List.map_map, List.map_map]; rfl
  rw [ho]
  have hz : ∀ l : List Str, (l.map (List.map ρ)).zipIdx = keysBy (List.map ρ) l.zipIdx := by
    intro l; rw [List.zipIdx_map]; rfl
  rw [hz, ofList_keysBy h.strs]
  show Except.ok _ = Except.ok _
  congr 1
  unfold renVZ
  have hs : ∀ d : Dict Str Nat, (sorted (fun a b => decide (a.2 ≤ b.2)) (keysBy (List.map ρ) d)).map (·.1) = ((sorted (fun a b => decide (a.2 ≤ b.2)) d).map (·.1)).map (List.map ρ) := by
    intro d
    unfold keysBy
    rw [sorted_map, List.map_map, List.map_map]; rfl
  dsimp only
  rw [hs, List.length_map]

/-- **C116** and gives every renamed document the same numbers -/
theorem C116_vectorizer_encode (h : Renames ρ) (p : VZ.Params) (hp : ∀ s, p.tokenizer (s.map ρ) = (p.tokenizer s).map (List.map ρ)) (st : VZ.State) (docs : List Str) (doc : Str) :
    VZ.encodeList p (renVZ ρ st) (doc.map ρ) = VZ.encodeList p st doc ∧ VZ.encodeBow p (renVZ ρ st) (doc.map ρ) = VZ.encodeBow p st doc ∧
    VZ.transform p (renVZ ρ st) (docs.map (List.map ρ)) = VZ.transform p st docs := by
  have hb : ∀ doc, VZ.encodeBow p (renVZ ρ st) (doc.map ρ) = VZ.encodeBow p st doc := by
    intro doc
    unfold VZ.encodeBow
    rw [hp, counter_map h.strs]
    dsimp only [renVZ]
    unfold keysBy
    rw [List.filterMap_map]
    congr 2
    funext e
    simp only [Function.comp]
    rw [show Dict.get? (renD ρ st.vocabulary) (e.1.map ρ) = _ from get?_keysBy h.strs st.vocabulary e.1]
  refine ⟨?_, hb doc, ?_⟩
  · unfold VZ.encodeList
    rw [hp, List.filterMap_map]
    congr 1
    funext w
    exact get?_keysBy h.strs _ _
  · unfold VZ.transform
    by_cases h0 : docs = []
    · subst h0; rfl
    rw [if_neg h0, if_neg (fun e => h0 (List.map_eq_nil_iff.1 e)), List.length_map, List.zipIdx_map, List.flatMap_map]
    have : (fun x : Str × Nat => (VZ.encodeBow p (renVZ ρ st) (Prod.map (List.map ρ) id x).1).map (fun e => ((Prod.map (List.map ρ) id x).2, e.1, e.2))) =
        fun d => (VZ.encodeBow p st d.1).map (fun e => (d.2, e.1, e.2)) := by
      funext x
      simp only [Prod.map, id]
      rw [hb]
    rw [this]
    rfl

/-- the counts with both words of every bigram renamed -/
def renBG (ρ : Char → Char) (s : BG.State) : BG.State := ⟨s.counter.map (keysBy (renPair ρ)), renD ρ s.unigram⟩

/-- **C116** the bigrams counted in renamed sentences are the renamed bigrams -/
theorem C116_bigrams (h : Renames ρ) (p : BG.Params) (hp : ∀ s, p.tokenizer (s.map ρ) = (p.tokenizer s).map (List.map ρ)) (sents : List Str) :
    BG.train p (sents.map (List.map ρ)) = (renBG ρ (BG.train p sents).1, (BG.train p sents).2) := by
  have hpair : ∀ a b : Str × Str, renPair ρ a = renPair ρ b → a = b := by
    rintro ⟨a, b⟩ ⟨c, d⟩ e
    have := Prod.mk.inj e
    exact Prod.ext (h.str this.1) (h.str this.2)
  have hs : ∀ (d : Dict (Str × Str) Nat) (x : Str) (i : Nat), BG.sentence p (keysBy (renPair ρ) d) (x.map ρ, i) = keysBy (renPair ρ) (BG.sentence p d (x, i)) := by
    intro d x i
    unfold BG.sentence
    dsimp only
    rw [hp, List.length_map]
    have h1 : (if p.checkpoint > 0 ∧ (i : Int) % p.checkpoint = 0 then BG.cut p.minFrequency (keysBy (renPair ρ) d) else keysBy (renPair ρ) d) =
        keysBy (renPair ρ) (if p.checkpoint > 0 ∧ (i : Int) % p.checkpoint = 0 then BG.cut p.minFrequency d else d) := by
      split
      · exact filter_keysBy _ _ _ (fun _ => rfl)
      · rfl
    rw [h1]
    split
    · rfl
    · have h2 : BG.toBigram ((p.tokenizer x).map (List.map ρ)) = (BG.toBigram (p.tokenizer x)).map (renPair ρ) := by
        unfold BG.toBigram
        rw [← List.map_drop, List.zip_map]; rfl
      rw [h2]
      exact foldl_add_keysBy hpair _ _
  have hf : ∀ (l : List (Str × Nat)) (d : Dict (Str × Str) Nat), (l.map (fun si => (si.1.map ρ, si.2))).foldl (BG.sentence p) (keysBy (renPair ρ) d) =
      keysBy (renPair ρ) (l.foldl (BG.sentence p) d) := by
    intro l
    induction l with
    | nil => intro d; rfl
    | cons a l ih => intro d; rw [List.map_cons, List.foldl_cons, List.foldl_cons, hs, ih]
  have hz : (sents.map (List.map ρ)).zipIdx = sents.zipIdx.map (fun si => (si.1.map ρ, si.2)) := by
    rw [List.zipIdx_map]; rfl
  have hc : BG.cut p.minFrequency ((sents.map (List.map ρ)).zipIdx.foldl (BG.sentence p) []) =
      keysBy (renPair ρ) (BG.cut p.minFrequency (sents.zipIdx.foldl (BG.sentence p) [])) := by
    rw [hz]
    have := hf sents.zipIdx []
    rw [show (sents.zipIdx.map (fun si => (si.1.map ρ, si.2))).foldl (BG.sentence p) [] = keysBy (renPair ρ) (sents.zipIdx.foldl (BG.sentence p) []) from this]
    exact filter_keysBy _ _ _ (fun _ => rfl)
  have hu : ∀ (l : Dict (Str × Str) Nat) (u : Dict Str Nat), (keysBy (renPair ρ) l).foldl (fun u e => Dict.add (Dict.add u e.1.1 1) e.1.2 1) (renD ρ u) =
      renD ρ (l.foldl (fun u e => Dict.add (Dict.add u e.1.1 1) e.1.2 1) u) := by
    intro l
    induction l with
    | nil => intro u; rfl
    | cons e l ih =>
      intro u
      show (keysBy (renPair ρ) l).foldl _ (Dict.add (Dict.add (renD ρ u) (e.1.1.map ρ) 1) (e.1.2.map ρ) 1) = _
      rw [add_keysBy h.strs, add_keysBy h.strs, ih]; rfl
  unfold BG.train
  dsimp only
  rw [hc]
  simp only [List.map_eq_nil_iff]
  unfold renBG BG.unigrams
  have := hu (BG.cut p.minFrequency (sents.zipIdx.foldl (BG.sentence p) [])) []
  rw [show (keysBy (renPair ρ) (BG.cut p.minFrequency (sents.zipIdx.foldl (BG.sentence p) []))).foldl (fun u e => Dict.add (Dict.add u e.1.1 1) e.1.2 1) ([] : Dict Str Nat) = _ from this]
  rfl

theorem innerRow_map {α β : Type} (f : α → β) (c' : β → β → Rat) (c : α → α → Rat) (hc : ∀ a b, c' (f a) (f b) = c a b) (a : α) (ps : List Rat) (cur : Rat) (s : List α) :
    Distance.innerRow c' (f a) ps cur (s.map f) = Distance.innerRow c a ps cur s := by
  induction s generalizing ps cur with
  | nil =>
    rcases ps with _ | ⟨p0, _ | ⟨p1, ps⟩⟩ <;> rfl
  | cons b s ih =>
    rcases ps with _ | ⟨p0, _ | ⟨p1, ps⟩⟩
    · rfl
    · rfl
    · rw [List.map_cons, Distance.innerRow, Distance.innerRow]
      rw [hc, ih]

theorem table_map {α β : Type} (f : α → β) (c' : β → β → Rat) (c : α → α → Rat) (hc : ∀ a b, c' (f a) (f b) = c a b) (s t : List α) :
    Distance.tableDistance c' (s.map f) (t.map f) = Distance.tableDistance c s t := by
  have : ∀ (s : List α) (i : Nat) (prev : List Rat), Distance.outerRows c' (t.map f) i prev (s.map f) = Distance.outerRows c t i prev s := by
    intro s
    induction s with
    | nil => intro i prev; rfl
    | cons a s ih =>
      intro i prev
      rw [List.map_cons, Distance.outerRows, Distance.outerRows]
      rw [innerRow_map f c' c hc, ih]
  unfold Distance.tableDistance
  rw [this, List.length_map, List.length_map]

/-- **C116** `levenshtein` with renamed strings and a renamed cost table, and `cosine_distance` of renamed strings, are unchanged -/
theorem C116_distances (h : Renames ρ) (s t : Str) (cost : Dict (Char × Char) Rat) :
    Distance.levenshtein (s.map ρ) (t.map ρ) (keysBy (fun p => (ρ p.1, ρ p.2)) cost) = Distance.levenshtein s t cost ∧
    Distance.cosineDistance (s.map ρ) (t.map ρ) = Distance.cosineDistance s t := by
  have hg : ∀ (c : Dict (Char × Char) Rat) (a b : Char), Distance.getCost (keysBy (fun p => (ρ p.1, ρ p.2)) c) (ρ a) (ρ b) = Distance.getCost c a b := by
    intro c a b
    unfold Distance.getCost
    have h1 : Dict.getD (keysBy (fun p : Char × Char => (ρ p.1, ρ p.2)) c) (ρ a, ρ b) 1 = Dict.getD c (a, b) 1 := by
      show (Dict.get? (keysBy _ c) ((fun p : Char × Char => (ρ p.1, ρ p.2)) (a, b))).getD 1 = _
      rw [get?_keysBy]
      rintro ⟨a, b⟩ ⟨c, d⟩ e
      have := Prod.mk.inj e
      exact Prod.ext (h.inj _ _ this.1) (h.inj _ _ this.2)
    rw [h1]
    by_cases e : a = b
    · rw [if_pos e, if_pos (congrArg ρ e)]
    · rw [if_neg e, if_neg (fun x => e (h.inj _ _ x))]
  constructor
  · unfold Distance.levenshtein
    rw [List.length_map, List.length_map, table_map ρ (Distance.getCost []) _ (hg []), table_map ρ _ _ (hg cost)]
  · unfold Distance.cosineDistance
    simp only [List.map_eq_nil_iff]
    rw [counter_map h.inj, counter_map h.inj]
    have h1 : ∀ d : Dict Char Nat, Distance.squareSum (keysBy ρ d) = Distance.squareSum d := by
      intro d; unfold Distance.squareSum keysBy; rw [List.map_map]; rfl
    have h2 : ∀ (d e : Dict Char Nat), Distance.dotProduct (keysBy ρ d) (keysBy ρ e) = Distance.dotProduct d e := by
      intro d e
      unfold Distance.dotProduct
      show (d.map (fun x => (ρ x.1, x.2))).foldl (fun prod x => prod + x.2 * Dict.getD (keysBy ρ e) x.1 0) 0 = _
      rw [List.foldl_map]
      congr 1
      funext n x
      show n + x.2 * (Dict.get? (keysBy ρ e) (ρ x.1)).getD 0 = _
      rw [get?_keysBy h.inj]
    rw [h1, h1, h2]

/-! ### the tables of all scores, and what `extract` returns -/

theorem ofLength_map (d : Dict Str Nat) (n : Int) : WX.ofLength (renD ρ d) n = (WX.ofLength d n).map (List.map ρ) := by
  unfold WX.ofLength renD keysBy
  rw [List.map_map, List.filter_map, List.filter_map, List.map_map]
  have : ((fun w : Str => decide ((w.length : Int) = n)) ∘ ((·.1) ∘ fun e : Str × Nat => (e.1.map ρ, e.2))) = (fun w : Str => decide ((w.length : Int) = n)) ∘ (·.1) := by
    funext e; simp
  rw [this]; rfl

theorem noBlank_map (h : Renames ρ) (w : Str) : WX.noBlank (w.map ρ) = (WX.noBlank w).map ρ := by
  unfold WX.noBlank
  rw [List.filter_map]
  congr 1
  apply List.filter_congr
  intro c _
  simp only [Function.comp]
  rw [decide_eq_decide]
  exact not_congr ⟨fun e => h.inj _ _ (e.trans h.blank.symm), fun e => by rw [e, h.blank]⟩

/-- keys and listed words renamed -/
abbrev renDD (ρ : Char → Char) (d : Dict Str (List Str)) : Dict Str (List Str) := d.map (fun e => (e.1.map ρ, e.2.map (List.map ρ)))

theorem appendTo_map (h : Renames ρ) (d : Dict Str (List Str)) (k w : Str) :
    WX.appendTo (renDD ρ d) (k.map ρ) (w.map ρ) = renDD ρ (WX.appendTo d k w) := by
  have hg : Dict.get? (renDD ρ d) (k.map ρ) = (Dict.get? d k).map (List.map (List.map ρ)) := by
    induction d with
    | nil => rfl
    | cons e d ih =>
      show (if e.1.map ρ = k.map ρ then some _ else Dict.get? (renDD ρ d) _) = Option.map _ (if e.1 = k then some _ else _)
      by_cases he : e.1 = k
      · rw [if_pos he, if_pos (by rw [he])]; rfl
      · rw [if_neg he, if_neg (fun x => he (h.str x)), ih]
  have hs : ∀ v : List Str, Dict.set (renDD ρ d) (k.map ρ) (v.map (List.map ρ)) = renDD ρ (Dict.set d k v) := by
    intro v
    clear hg
    induction d with
    | nil => rfl
    | cons e d ih =>
      show (if e.1.map ρ = k.map ρ then (e.1.map ρ, _) :: renDD ρ d else _ :: Dict.set (renDD ρ d) _ _) = renDD ρ (if e.1 = k then (e.1, v) :: d else (e.1, e.2) :: Dict.set d k v)
      by_cases he : e.1 = k
      · rw [if_pos he, if_pos (by rw [he])]; rfl
      · rw [if_neg he, if_neg (fun x => he (h.str x)), ih]; rfl
  unfold WX.appendTo Dict.getD
  rw [hg, ← hs, List.map_append]
  cases Dict.get? d k <;> rfl

theorem extensions_map (h : Renames ρ) (parse : Str → Str) (hp : ∀ w : Str, parse (w.map ρ) = (parse w).map ρ) (a b : List Str) :
    WX.extensions parse (a.map (List.map ρ)) (b.map (List.map ρ)) = renDD ρ (WX.extensions parse a b) := by
  unfold WX.extensions
  have h1 : ∀ (l : List Str) (d : Dict Str (List Str)), (l.map (List.map ρ)).foldl (fun d w => WX.appendTo d (parse w) w) (renDD ρ d) =
      renDD ρ (l.foldl (fun d w => WX.appendTo d (parse w) w) d) := by
    intro l
    induction l with
    | nil => intro d; rfl
    | cons w l ih => intro d; rw [List.map_cons, List.foldl_cons, List.foldl_cons, hp, appendTo_map h, ih]
  have h2 : ∀ (l : List Str) (d : Dict Str (List Str)), (l.map (List.map ρ)).foldl (fun d w => WX.appendTo d (parse (WX.noBlank w)) w) (renDD ρ d) =
      renDD ρ (l.foldl (fun d w => WX.appendTo d (parse (WX.noBlank w)) w) d) := by
    intro l
    induction l with
    | nil => intro d; rfl
    | cons w l ih => intro d; rw [List.map_cons, List.foldl_cons, List.foldl_cons, noBlank_map h, hp, appendTo_map h, ih]
  have := h1 a []
  rw [show (a.map (List.map ρ)).foldl (fun d w => WX.appendTo d (parse w) w) [] = _ from this, h2]

theorem extFreq_map (h : Renames ρ) (c ca : Dict Str Nat) (es : List Str) : WX.extFreq (renD ρ c) (renD ρ ca) (es.map (List.map ρ)) = renD ρ (WX.extFreq c ca es) := by
  unfold WX.extFreq
  refine Eq.trans ?_ (ofList_keysBy h.strs _)
  congr 1
  unfold keysBy
  rw [List.map_map, List.map_map]
  apply List.map_congr_left
  intro w _
  simp only [Function.comp]
  have hm : ' ' ∈ w.map ρ ↔ ' ' ∈ w := by
    rw [List.mem_map]
    exact ⟨fun ⟨c, hc, e⟩ => by rw [← h.inj c ' ' (e.trans h.blank.symm)]; exact hc, fun hc => ⟨' ', hc, h.blank⟩⟩
  have g1 := getD_map h c w 0
  have g2 := getD_map h ca w 0
  by_cases hb : ' ' ∈ w
  · rw [if_pos hb, if_pos (hm.2 hb)]; exact congrArg _ g2
  · rw [if_neg hb, if_neg (fun x => hb (hm.1 x))]; exact congrArg _ g1

theorem entropyTable_map (h : Renames ρ) {α : Type} (score : Dict Str Nat → α) (hs : ∀ d, score (renD ρ d) = score d) (parse : Str → Str)
    (hp : ∀ w : Str, parse (w.map ρ) = (parse w).map ρ) (m : Int) (c ca : Dict Str Nat) :
    WX.entropyTable score parse m (renD ρ c) (renD ρ ca) = renD ρ (WX.entropyTable score parse m c ca) := by
  unfold WX.entropyTable
  have hin : ∀ (l : Dict Str (List Str)) (be : Dict Str α), (renDD ρ l).foldl (fun be e => Dict.set be e.1 (score (WX.extFreq (renD ρ c) (renD ρ ca) e.2))) (renD ρ be) =
      renD ρ (l.foldl (fun be e => Dict.set be e.1 (score (WX.extFreq c ca e.2))) be) := by
    intro l
    induction l with
    | nil => intro be; rfl
    | cons e l ih =>
      intro be
      show (renDD ρ l).foldl _ (Dict.set (renD ρ be) (e.1.map ρ) (score (WX.extFreq (renD ρ c) (renD ρ ca) (e.2.map (List.map ρ))))) = _
      rw [extFreq_map h, hs, set_keysBy h.strs, ih]; rfl
  have hout : ∀ (l : List Nat) (be : Dict Str α),
      l.foldl (fun be (i : Nat) => (WX.extensions parse (WX.ofLength (renD ρ c) ((i : Int) + 2)) (WX.ofLength (renD ρ ca) ((i : Int) + 3))).foldl
        (fun be e => Dict.set be e.1 (score (WX.extFreq (renD ρ c) (renD ρ ca) e.2))) be) (renD ρ be) =
      renD ρ (l.foldl (fun be (i : Nat) => (WX.extensions parse (WX.ofLength c ((i : Int) + 2)) (WX.ofLength ca ((i : Int) + 3))).foldl
        (fun be e => Dict.set be e.1 (score (WX.extFreq c ca e.2))) be) be) := by
    intro l
    induction l with
    | nil => intro be; rfl
    | cons i l ih => intro be; rw [List.foldl_cons, List.foldl_cons, ofLength_map, ofLength_map, extensions_map h parse hp, hin, ih]
  exact hout _ []

theorem merge_map (h : Renames ρ) {α : Type} [Zero α] (l r : Dict Str α) : WX.merge (renD ρ l) (renD ρ r) = renD ρ (WX.merge l r) := by
  unfold WX.merge
  have h0 : (renD ρ l).map (fun e => (e.1, (e.2, Dict.getD (renD ρ r) e.1 0))) = renD ρ (l.map (fun e => (e.1, (e.2, Dict.getD r e.1 0)))) := by
    unfold renD keysBy
    rw [List.map_map, List.map_map]
    apply List.map_congr_left
    intro e _
    simp only [Function.comp]
    have g := getD_map h r e.1 0
    unfold renD keysBy at g
    rw [show Dict.getD (List.map (fun e => (List.map ρ e.1, e.2)) r) (List.map ρ e.1) 0 = _ from g]
  rw [h0]
  generalize (l.map (fun e => (e.1, (e.2, Dict.getD r e.1 0)))) = be
  induction r generalizing be with
  | nil => rfl
  | cons e r ih =>
    show (renD ρ r).foldl (fun be e => if Dict.has (renD ρ l) e.1 then be else Dict.set be e.1 (0, e.2))
      (if (Dict.get? (renD ρ l) (e.1.map ρ)).isSome then renD ρ be else Dict.set (renD ρ be) (e.1.map ρ) (0, e.2)) = _
    rw [show Dict.get? (renD ρ l) (e.1.map ρ) = _ from get?_keysBy h.strs l e.1, set_keysBy h.strs]
    rw [List.foldl_cons]
    by_cases hl : (Dict.get? l e.1).isSome = true
    · rw [if_pos hl, if_pos hl]
      exact fold_has h l r be
    · rw [if_neg hl, if_neg hl]
      exact fold_has h l r _
where
  fold_has (h : Renames ρ) {α : Type} [Zero α] (l r : Dict Str α) (be : Dict Str (α × α)) :
      (renD ρ r).foldl (fun be e => if Dict.has (renD ρ l) e.1 then be else Dict.set be e.1 (0, e.2)) (renD ρ be) =
      renD ρ (r.foldl (fun be e => if Dict.has l e.1 then be else Dict.set be e.1 (0, e.2)) be) := by
    induction r generalizing be with
    | nil => rfl
    | cons e r ih =>
      show (renD ρ r).foldl (fun be e => if Dict.has (renD ρ l) e.1 then be else Dict.set be e.1 (0, e.2))
        (if (Dict.get? (renD ρ l) (e.1.map ρ)).isSome then renD ρ be else Dict.set (renD ρ be) (e.1.map ρ) (0, e.2)) = _
      rw [show Dict.get? (renD ρ l) (e.1.map ρ) = _ from get?_keysBy h.strs l e.1, set_keysBy h.strs]
      rw [List.foldl_cons]
      by_cases hl : (Dict.get? l e.1).isSome = true
      · rw [if_pos hl, if_pos hl, ih]
      · rw [if_neg hl, if_neg hl, ih]

theorem allBranching_map (h : Renames ρ) {α : Type} [Zero α] (score : Dict Str Nat → α) (hs : ∀ d, score (renD ρ d) = score d) (p : WX.Params) (s : WX.State) :
    WX.allBranching score p (renWX ρ s) = renD ρ (WX.allBranching score p s) := by
  unfold WX.allBranching
  dsimp only [renWX]
  rw [entropyTable_map h score hs _ (fun w => by simp), entropyTable_map h score hs _ (fun w => by simp [List.map_dropLast]), merge_map h]

theorem allCohesion_map (h : Renames ρ) (s : WX.State) (ws : List Str) (cps : Dict Str (ℝ × ℝ)) :
    WX.allCohesion (renWX ρ s) (ws.map (List.map ρ)) (renD ρ cps) = (WX.allCohesion s ws cps).map (renD ρ) := by
  induction ws generalizing cps with
  | nil => rfl
  | cons w ws ih =>
    rw [List.map_cons, WX.allCohesion, WX.allCohesion, cohesion_map h]
    cases WX.cohesion s w with
    | error e => rfl
    | ok cp =>
      dsimp only
      rw [set_keysBy h.strs]
      by_cases hz : cp.1 = 0 ∧ cp.2 = 0
      · rw [if_pos hz, if_pos hz, ih]
      · rw [if_neg hz, if_neg hz, ih]

/-- **C116** the table of all word scores of the renamed extractor is the renamed table -/
theorem C116_word_score_table (h : Renames ρ) (p : WX.Params) (s : WX.State) (order : List Str) :
    WX.wordScores p (renWX ρ s) (order.map (List.map ρ)) = (WX.wordScores p s order).map (renD ρ) := by
  unfold WX.wordScores
  have hc := allCohesion_map h s order []
  rw [show WX.allCohesion (renWX ρ s) (order.map (List.map ρ)) [] = _ from hc]
  cases WX.allCohesion s order [] with
  | error e => rfl
  | ok cps =>
    show Except.ok _ = Except.ok _
    congr 1
    unfold WX.allAccessorVariety
    rw [allBranching_map h WX.entropy entropy_map, allBranching_map h List.length (fun d => by simp [renD, keysBy])]
    generalize WX.allBranching WX.entropy p s = be
    generalize WX.allBranching List.length p s = av
    have : ∀ (l : List Str) (d : Dict Str WX.Scores),
        (l.map (List.map ρ)).foldl (fun d w =>
          let cp := Dict.getD (renD ρ cps) w (0, 0)
          let be := Dict.getD (renD ρ be) w (0, 0)
          let av := Dict.getD (renD ρ av) w (0, 0)
          Dict.set d w ⟨cp.1, cp.2, be.1, be.2, av.1, av.2, Dict.getD (renWX ρ s).L w 0, Dict.getD (renWX ρ s).R w 0⟩) (renD ρ d) =
        renD ρ (l.foldl (fun d w =>
          let cp := Dict.getD cps w (0, 0)
          let be := Dict.getD be w (0, 0)
          let av := Dict.getD av w (0, 0)
          Dict.set d w ⟨cp.1, cp.2, be.1, be.2, av.1, av.2, Dict.getD s.L w 0, Dict.getD s.R w 0⟩) d) := by
      intro l
      induction l with
      | nil => intro d; rfl
      | cons w l ih =>
        intro d
        rw [List.map_cons, List.foldl_cons, List.foldl_cons, ← ih]
        congr 1
        dsimp only [renWX]
        rw [getD_map h, getD_map h, getD_map h, getD_map h, getD_map h, set_keysBy h.strs]
    exact this order []

/-- **C116** and `extract` with the same thresholds returns the renamed words with the same scores -/
theorem C116_word_extract (h : Renames ρ) (c : WX.Cuts) (L : Dict Str Nat) (scores : Dict Str WX.Scores) :
    WX.extract c (renD ρ L) (renD ρ scores) = renD ρ (WX.extract c L scores) := by
  unfold WX.extract
  have hs : Py.sorted (fun a b : Str × WX.Scores => decide (a.1.length ≤ b.1.length)) (renD ρ scores) =
      renD ρ (Py.sorted (fun a b : Str × WX.Scores => decide (a.1.length ≤ b.1.length)) scores) := by
    unfold renD keysBy
    rw [sorted_map]
    simp only [List.length_map]
  rw [hs]
  generalize Py.sorted (fun a b : Str × WX.Scores => decide (a.1.length ≤ b.1.length)) scores = l
  have hstep : ∀ (acc : Dict Str WX.Scores) (e : Str × WX.Scores), WX.extractStep c (renD ρ L) (renD ρ acc) (e.1.map ρ, e.2) = renD ρ (WX.extractStep c L acc e) := by
    intro acc e
    obtain ⟨w, sc⟩ := e
    have he : ∀ (d : Dict Str WX.Scores) (k : Str), Dict.erase (renD ρ d) (k.map ρ) = renD ρ (Dict.erase d k) := by
      intro d k
      apply filter_keysBy
      intro e
      rw [decide_eq_decide]
      exact not_congr ⟨h.str, fun x => by rw [x]⟩
    unfold WX.extractStep
    dsimp only
    rw [set_keysBy h.strs, ← List.map_dropLast, List.length_map, show Dict.get? (renD ρ L) (w.dropLast.map ρ) = _ from get?_keysBy h.strs L w.dropLast, he]
    have hh : Dict.has (keysBy (List.map ρ) (Dict.set acc w sc)) (w.dropLast.map ρ) = Dict.has (Dict.set acc w sc) w.dropLast := by
      show (Dict.get? _ _).isSome = _
      rw [get?_keysBy h.strs]
    rw [hh]
    split
    · rfl
    · split
      · rfl
      · split
        · rfl
        · split
          · split <;> rfl
          · split <;> rfl
  have : ∀ (l acc : Dict Str WX.Scores), (renD ρ l).foldl (WX.extractStep c (renD ρ L)) (renD ρ acc) = renD ρ (l.foldl (WX.extractStep c L) acc) := by
    intro l
    induction l with
    | nil => intro acc; rfl
    | cons e l ih =>
      intro acc
      show (renD ρ l).foldl _ (WX.extractStep c (renD ρ L) (renD ρ acc) (e.1.map ρ, e.2)) = _
      rw [hstep, ih]; rfl
  exact this l []

/-! ### what is not blind, and cases -/

/-- swap 가 and 꿈 -/
def swapTwo (c : Char) : Char := if c = '가' then '꿈' else if c = '꿈' then '가' else c

/-- such a swap is a renaming -/
theorem swapTwo_renames : Renames swapTwo := by
  have h1 : isSpace '가' = false := by decide +kernel
  have h2 : isSpace '꿈' = false := by decide +kernel
  have hne : ('가' : Char) ≠ '꿈' := by decide
  refine ⟨?_, ?_, by decide⟩
  · intro a b e
    unfold swapTwo at e
    by_cases a1 : a = '가' <;> by_cases b1 : b = '가' <;> by_cases a2 : a = '꿈' <;> by_cases b2 : b = '꿈' <;> simp_all <;> exact absurd e.symm ‹_›
  · intro c
    unfold swapTwo
    by_cases c1 : c = '가'
    · subst c1; rw [if_pos rfl, h1, h2]
    · rw [if_neg c1]
      by_cases c2 : c = '꿈'
      · subst c2; rw [if_pos rfl, h1, h2]
      · rw [if_neg c2]

/-- **C116** (limits) `jamo_levenshtein`, which looks inside syllables, is not unchanged by a renaming -/
theorem C116_jamo_not_blind : ∃ ρ, Renames ρ ∧ ∃ s t : Str, Distance.jamoLevenshtein (s.map ρ) (t.map ρ) ≠ Distance.jamoLevenshtein s t :=
  ⟨swapTwo, swapTwo_renames, ['가'], ['각'], by decide +kernel⟩

example : LTok.tokenize (renD swapTwo [("가나".toList, 1)]) 0 0 ("가나다 가".toList.map swapTwo) = .ok ["꿈나".toList, "다".toList, "꿈".toList] := by
  rw [(C116_l_tokenizer swapTwo_renames _ _ _ _).2.1]; decide +kernel
example : MaxScore.tokenize (renD swapTwo [("가나".toList, 1)]) 10 0 ("다가나".toList.map swapTwo) = .ok ["다".toList, "꿈나".toList] := by
  rw [(C116_max_score swapTwo_renames _ _ _ _).2]; decide +kernel
example : (EC.construct {} (some ["꿈나 다".toList, "꿈나".toList])).map (·.counter) = .ok [("꿈나".toList, 2), ("다".toList, 1)] := by
  have := C116_eojeol_counter swapTwo_renames {} (fun _ => rfl) ["가나 다".toList, "가나".toList]
  rw [show ["가나 다".toList, "가나".toList].map (List.map swapTwo) = ["꿈나 다".toList, "꿈나".toList] by decide +kernel] at this
  rw [this]; decide +kernel
example : NounTok.tokenizeL (fun w => decide (w = "꿈나".toList)) ("가나다".toList.map swapTwo) true = ["꿈나".toList] := by
  rw [C116_noun_l_match swapTwo_renames (fun w => decide (w = "가나".toList)) _ (fun w => decide_eq_decide.2 (by
    constructor
    · intro e; exact swapTwo_renames.str (e.trans (by decide +kernel))
    · rintro rfl; decide +kernel))]
  decide +kernel
example : Distance.levenshtein ("가나".toList.map swapTwo) ("가다".toList.map swapTwo) [] = 1 := by
  rw [show ([] : Dict (Char × Char) Rat) = keysBy (fun p : Char × Char => (swapTwo p.1, swapTwo p.2)) [] from rfl, (C116_distances swapTwo_renames _ _ _).1]
  decide +kernel

end Props
