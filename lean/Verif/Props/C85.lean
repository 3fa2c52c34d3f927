import Verif.Model.Utils
import Mathlib.Data.List.Nodup
import Mathlib.Data.List.DropRight
import Mathlib.Data.List.TakeWhile
import Mathlib.Data.List.Perm.Basic
import Mathlib.Data.List.Perm.Subperm
/-! C85: `sort_by_alphabet`, `check_dirs` and `most_similar`. -/
set_option linter.unusedSimpArgs false
namespace Props
open Py Utils

/-! ### specification -/

/-- a text that is a list of lines, each ended by a newline -/
def asFile (ls : List Str) : Str := ls.flatMap (fun l => l ++ ['\n'])

/-- a line as `sort_by_alphabet` leaves it: not empty, no whitespace at its ends, on one line -/
def TidyLine (l : Str) : Prop := l ≠ [] ∧ strip l = l ∧ '\n' ∉ l ∧ '\r' ∉ l

/-- the distance of row `i` from the row of the query -/
def rowDist {V : Type} (dist : V → V → Rat) (vectors : List V) (q i : Nat) : Rat :=
  match vectors[q]?, vectors[i]? with
  | some a, some b => dist a b
  | _, _ => 0

/-- what `argsort` promises: all indices, in the order of the values -/
def IsArgsort (argsort : List Rat → List Nat) : Prop :=
  ∀ d, (argsort d).Perm (List.range d.length) ∧ (argsort d).Pairwise (fun i j => d.getD i 0 ≤ d.getD j 0)

/-! ### sorting a file -/

private theorem dropWhile_suffix {α : Type} (p : α → Bool) (l : List α) : l.dropWhile p <:+ l := List.dropWhile_suffix p

private theorem strip_strip (s : Str) : strip (strip s) = strip s := by
  have hr : ∀ s : Str, rstrip (rstrip s) = rstrip s := by
    intro s
    unfold rstrip
    rw [List.reverse_reverse, List.dropWhile_idempotent]
  have hd : ∀ s : Str, s.dropWhile isSpace = s ↔ ∀ c, s.head? = some c → isSpace c = false := by
    intro s
    cases s with
    | nil => simp
    | cons c s =>
      cases hc : isSpace c with
      | false => simp [List.dropWhile_cons, hc]
      | true =>
        simp only [List.dropWhile_cons, hc, if_true, List.head?_cons, Option.some.injEq]
        constructor
        · intro h
          have := congrArg List.length h
          have h2 := (List.dropWhile_suffix isSpace (l := s)).length_le
          rw [List.length_cons] at this
          omega
        · intro h; exact absurd (h c rfl) (by simp [hc])
  have hl : lstrip (rstrip (lstrip s)) = rstrip (lstrip s) := by
    unfold lstrip
    rw [hd]
    intro c hc
    have hpre : rstrip (s.dropWhile isSpace) <+: s.dropWhile isSpace := by
      unfold rstrip
      rw [← List.reverse_suffix, List.reverse_reverse]
      exact List.dropWhile_suffix _
    have hh : (s.dropWhile isSpace).head? = some c := by
      obtain ⟨t, ht⟩ := hpre
      rw [← ht]
      cases h : rstrip (s.dropWhile isSpace) with
      | nil => rw [h] at hc; cases hc
      | cons a b => rw [h] at hc; simpa using hc
    exact (hd (s.dropWhile isSpace)).1 (List.dropWhile_idempotent _ _) c hh
  unfold strip
  rw [hl, hr]

private theorem mem_strip {s : Str} {c : Char} (h : c ∈ strip s) : c ∈ s := by
  unfold strip rstrip lstrip at h
  rw [List.mem_reverse] at h
  have h1 := (List.dropWhile_suffix _ ).subset h
  rw [List.mem_reverse] at h1
  exact (List.dropWhile_suffix _).subset h1

private theorem univ_no_cr : ∀ s : Str, '\r' ∉ univNewlines s
  | [] => by simp [univNewlines]
  | c :: s => by
    by_cases h : ∃ t, c = '\r' ∧ s = '\n' :: t
    · obtain ⟨t, rfl, rfl⟩ := h
      rw [univNewlines]
      intro hm
      rcases List.mem_cons.1 hm with h | h
      · exact absurd h (by decide)
      · exact univ_no_cr t h
    · rw [univNewlines]
      · intro hm
        rcases List.mem_cons.1 hm with h' | h'
        · split at h'
          · exact absurd h' (by decide)
          · next hc => exact hc h'.symm
        · exact univ_no_cr s h'
      · rintro t rfl rfl; exact h ⟨t, rfl, rfl⟩

private theorem linesGo_shape (s : Str) : ∀ cur, '\n' ∉ cur → ∀ l ∈ linesGo cur s, ∃ w, '\n' ∉ w ∧ (l = w ∨ l = w ++ ['\n']) := by
  induction s with
  | nil =>
    intro cur hc l hl
    simp only [linesGo] at hl
    split at hl
    · simp at hl
    · rw [List.mem_singleton] at hl; exact ⟨cur, hc, .inl hl⟩
  | cons c s ih =>
    intro cur hc l hl
    simp only [linesGo] at hl
    split at hl
    · next h =>
      rcases List.mem_cons.1 hl with rfl | hl
      · exact ⟨cur, hc, .inr (by rw [h])⟩
      · exact ih [] (by simp) l hl
    · next h => exact ih (cur ++ [c]) (by simp [hc]; exact fun e => h e.symm) l hl

private theorem linesGo_mem (s : Str) : ∀ cur, ∀ l ∈ linesGo cur s, ∀ c ∈ l, c ∈ cur ∨ c ∈ s := by
  induction s with
  | nil =>
    intro cur l hl c hc
    simp only [linesGo] at hl
    split at hl
    · simp at hl
    · rw [List.mem_singleton] at hl; subst hl; exact .inl hc
  | cons a s ih =>
    intro cur l hl c hc
    simp only [linesGo] at hl
    split at hl
    · rcases List.mem_cons.1 hl with rfl | hl
      · rcases List.mem_append.1 hc with h | h
        · exact .inl h
        · exact .inr (by simp at h; simp [h])
      · rcases ih [] l hl c hc with h | h
        · simp at h
        · exact .inr (by simp [h])
    · rcases ih _ l hl c hc with h | h
      · rcases List.mem_append.1 h with h | h
        · exact .inl h
        · exact .inr (by simp at h; simp [h])
      · exact .inr (by simp [h])

private theorem docs_tidy (text : Str) : ∀ d ∈ ((fileLines text).map strip).filter (fun d => !d.isEmpty), TidyLine d := by
  intro d hd
  rw [List.mem_filter] at hd
  obtain ⟨l, hl, rfl⟩ := List.mem_map.1 hd.1
  have hne : strip l ≠ [] := by have := hd.2; simp at this; exact this
  refine ⟨hne, strip_strip l, ?_, ?_⟩
  · obtain ⟨w, hw, rfl | rfl⟩ := linesGo_shape _ [] (by simp) l hl
    · exact fun h => hw (mem_strip h)
    · have h1 : strip (w ++ ['\n']) = strip w ∨ strip (w ++ ['\n']) = [] := by
        unfold strip
        by_cases hw0 : ∀ c ∈ w, isSpace c = true
        · right
          have : lstrip (w ++ ['\n']) = [] := by
            unfold lstrip
            rw [List.dropWhile_eq_nil_iff]
            intro c hc
            rcases List.mem_append.1 hc with h | h
            · exact hw0 c h
            · simp at h; subst h; decide
          rw [this]; rfl
        · left
          have : lstrip (w ++ ['\n']) = lstrip w ++ ['\n'] := by
            unfold lstrip
            rw [List.dropWhile_append, if_neg]
            rw [List.isEmpty_iff, List.dropWhile_eq_nil_iff]; exact hw0
          rw [this, rstrip_append_space _ _ (by decide)]
      rcases h1 with h1 | h1
      · rw [h1]; exact fun h => hw (mem_strip h)
      · exact absurd h1 hne
  · intro h
    rcases linesGo_mem _ [] l hl _ (mem_strip h) with h | h
    · simp at h
    · exact univ_no_cr _ h

private theorem lines_tidy {ls : List Str} (h : ∀ l ∈ ls, TidyLine l) : ((fileLines (asFile ls)).map strip).filter (fun d => !d.isEmpty) = ls := by
  unfold asFile
  rw [fileLines_written _ (fun l hl => (h l hl).2.2), List.map_map]
  have : ls.map (strip ∘ (· ++ ['\n'])) = ls := by
    conv_rhs => rw [← List.map_id ls]
    refine List.map_congr_left (fun l hl => ?_)
    obtain ⟨h1, h2, _⟩ := h l hl
    show strip (l ++ ['\n']) = l
    have hl : lstrip (l ++ ['\n']) = lstrip l ++ ['\n'] := by
      unfold lstrip
      rw [List.dropWhile_append, if_neg]
      intro h0
      rw [List.isEmpty_iff] at h0
      unfold strip lstrip at h2
      rw [h0] at h2
      exact h1 h2.symm
    unfold strip at h2 ⊢
    rw [hl, rstrip_append_space _ _ (by decide), h2]
  rw [this, List.filter_eq_self]
  intro l hl
  have := (h l hl).1
  simp [this]

/-- C85 (a): the new file is the non-blank lines of the old one, stripped, in the order of their code points; sorting it again changes nothing, and every file of
    tidy lines in order is left alone -/
theorem C85_sort (text : Str) : ∃ ls, sortByAlphabet text = asFile ls ∧ ls.Perm (((fileLines text).map strip).filter (fun d => !d.isEmpty)) ∧
    ls.Pairwise (fun a b => strLe a b = true) ∧ (∀ l ∈ ls, TidyLine l) ∧ sortByAlphabet (sortByAlphabet text) = sortByAlphabet text ∧
    (∀ ms, (∀ l ∈ ms, TidyLine l) → ms.Pairwise (fun a b => strLe a b = true) → sortByAlphabet (asFile ms) = asFile ms) := by
  have ht : TotalPre strLe := ⟨fun a b c => strLe_trans a b c, fun a b => strLe_total a b⟩
  have hfix : ∀ ms, (∀ l ∈ ms, TidyLine l) → ms.Pairwise (fun a b => strLe a b = true) → sortByAlphabet (asFile ms) = asFile ms := by
    intro ms h1 h2
    unfold sortByAlphabet
    simp only
    rw [lines_tidy h1, sorted_of_pairwise h2]; rfl
  have htidy : ∀ l ∈ sorted strLe (((fileLines text).map strip).filter (fun d => !d.isEmpty)), TidyLine l := fun l hl => docs_tidy text l (mem_sorted.1 hl)
  refine ⟨sorted strLe (((fileLines text).map strip).filter (fun d => !d.isEmpty)), rfl, sorted_perm _ _, pairwise_sorted ht _, htidy, ?_, hfix⟩
  exact hfix _ htidy (pairwise_sorted ht _)

example : sortByAlphabet "  나라\n\n가방 \r\n가\n".toList = "가\n가방\n나라\n".toList := by decide +kernel

/-- the paths in the current directory, written with a dot: `./name`, `.//name` -/
def DotPath (path : Str) : Prop := ∃ (n : Nat) (name : Str), '/' ∉ name ∧ path = '.' :: List.replicate (n + 1) '/' ++ name

private theorem dropWhile_name {name rest : Str} (h : '/' ∉ name) : (name ++ '/' :: rest).dropWhile (· ≠ '/') = '/' :: rest := by
  induction name with
  | nil => simp
  | cons c name ih =>
    have hc : c ≠ '/' := fun e => h (by simp [e])
    rw [List.cons_append, List.dropWhile_cons_of_pos (by simpa using hc)]
    exact ih (fun hm => h (by simp [hm]))

private theorem dropWhile_slashes (n : Nat) (rest : Str) (h : rest.head? ≠ some '/') : (List.replicate n '/' ++ rest).dropWhile (· = '/') = rest := by
  induction n with
  | zero =>
    cases rest with
    | nil => rfl
    | cons c r => simp at h; simp [h]
  | succ n ih => simp [List.replicate_succ, ih]

private theorem slashes_of_dropWhile (s rest : Str) (h : s.dropWhile (· = '/') = rest) : ∃ n, s = List.replicate n '/' ++ rest := by
  induction s generalizing rest with
  | nil => exact ⟨0, by simpa using h⟩
  | cons c s ih =>
    by_cases hc : c = '/'
    · subst hc
      rw [List.dropWhile_cons_of_pos (by simp)] at h
      obtain ⟨n, hn⟩ := ih rest h
      exact ⟨n + 1, by rw [List.replicate_succ, List.cons_append, hn]⟩
    · rw [List.dropWhile_cons_of_neg (by simpa using hc)] at h
      exact ⟨0, by simpa using h⟩

private theorem name_of_dropWhile (s : Str) : ∃ name, '/' ∉ name ∧ s = name ++ s.dropWhile (· ≠ '/') := by
  refine ⟨s.takeWhile (· ≠ '/'), ?_, (List.takeWhile_append_dropWhile).symm⟩
  intro h
  have := List.all_takeWhile (p := fun c : Char => decide (c ≠ '/')) (l := s)
  rw [List.all_eq_true] at this
  simpa using this _ h

private theorem dirname_dot (path : Str) : dirname path = ['.'] ↔ DotPath path := by
  unfold dirname DotPath
  simp only
  constructor
  · intro h
    obtain ⟨name, hn, hp⟩ := name_of_dropWhile path.reverse
    obtain ⟨H, hH⟩ : ∃ H, path.reverse.dropWhile (fun c => decide (c ≠ '/')) = H := ⟨_, rfl⟩
    rw [hH] at h hp
    split at h
    · next hall =>
      rw [h] at hall
      exact absurd hall (by decide)
    · rw [List.reverse_reverse] at h
      have h' : H.dropWhile (· = '/') = ['.'] := by
        have := congrArg List.reverse h
        simpa using this
      obtain ⟨n, hn2⟩ := slashes_of_dropWhile _ _ h'
      have hn0 : n ≠ 0 := by
        rintro rfl
        have e : H = ['.'] := by simpa using hn2
        have : H.head? ≠ some '.' := by
          rw [← hH]
          intro h0
          have := List.head?_dropWhile_not (fun c : Char => decide (c ≠ '/')) path.reverse
          rw [h0] at this
          simp at this
        rw [e] at this
        exact this rfl
      refine ⟨n - 1, name.reverse, by simpa using hn, ?_⟩
      have := congrArg List.reverse hp
      rw [List.reverse_reverse, hn2] at this
      rw [this, show n - 1 + 1 = n by omega]
      simp
  · rintro ⟨n, name, hn, rfl⟩
    have e1 : ('.' :: List.replicate (n + 1) '/' ++ name).reverse = name.reverse ++ '/' :: (List.replicate n '/' ++ ['.']) := by
      rw [List.replicate_succ']
      simp
    have e2 : '/' :: (List.replicate n '/' ++ ['.']) = List.replicate (n + 1) '/' ++ ['.'] := by simp [List.replicate_succ]
    rw [e1, dropWhile_name (by simpa using hn), e2, if_neg (by simp), List.reverse_reverse, dropWhile_slashes _ _ (by simp)]
    rfl

/-- C85 (b): `check_dirs` creates a directory only for a path like `./name` when the current directory does not exist, and then it is `.`; so the directory
    of the path is not created, whatever is missing -/
theorem C85_check_dirs (there : Str → Bool) (path d : Str) : checkDirs there path = some d ↔ d = ['.'] ∧ DotPath path ∧ there ['.'] = false := by
  unfold checkDirs
  simp only
  rw [← dirname_dot]
  constructor
  · intro h
    split at h
    · next hc =>
      simp only [Bool.and_eq_true, beq_iff_eq, Bool.not_eq_true'] at hc
      have e := hc.1.2
      cases h
      exact ⟨e, e, by have h2 := hc.2; rwa [e] at h2⟩
    · cases h
  · rintro ⟨rfl, e, ht⟩
    rw [e, ht]
    rfl

example : checkDirs (fun _ => false) ".//nouns.log".toList = some ['.'] := by decide +kernel
example : dirname "logs/today/nouns.log".toList = "logs/today".toList ∧ checkDirs (fun d => d == ['.']) "logs/today/nouns.log".toList = none := by decide +kernel

/-! ### most_similar -/

section
variable {V : Type} (dist : V → V → Rat) (argsort : List Rat → List Nat) (ha : IsArgsort argsort) (query : Str) (vectors : List V) (itemToIdx : Dict Str Int)
  (idxToItem : List Str) (topk : Int)

/-- C85 (c): a query that is not known has no similar items -/
theorem C85_unknown (h : Dict.get? itemToIdx query = none) : mostSimilar dist argsort query vectors itemToIdx idxToItem topk = .ok [] := by
  unfold mostSimilar Dict.getD
  rw [h]
  rfl

/-- C85 (c): an index beyond the rows raises `IndexError` -/
theorem C85_bad_index (q : Int) (h : Dict.get? itemToIdx query = some q) (hq : (vectors.length : Int) ≤ q ∨ q < -(vectors.length : Int) ∧ q ≠ -1) :
    mostSimilar dist argsort query vectors itemToIdx idxToItem topk = .error .indexError := by
  unfold mostSimilar Dict.getD
  rw [h]
  simp only [Option.getD_some]
  rw [if_neg (by omega)]
  have : pyIndex vectors q = .error .indexError := by
    unfold pyIndex getItem
    simp only
    rcases hq with hq | ⟨hq, _⟩
    · have hn : ¬ q < 0 := by omega
      rw [if_neg hn, if_neg hn, List.getElem?_eq_none (by omega)]
    · rw [if_pos (show q < 0 by omega), if_pos (by omega)]
  rw [this]

include ha in
/-- C85 (d): otherwise other items are returned with one minus their distance, nearest first, none twice, and nothing nearer is left out. A `topk` that is not
    positive gives all; a positive one gives `topk` (or all, if there are fewer) — unless at least `topk + 1` others are as near to the query as its own row:
    then it may be `topk + 1` -/
theorem C85_similar (q : Nat) (hq : Dict.get? itemToIdx query = some (q : Int)) (hv : q < vectors.length) (hi : vectors.length ≤ idxToItem.length) :
    ∃ idxs : List Nat, mostSimilar dist argsort query vectors itemToIdx idxToItem topk = .ok (idxs.map (fun i => (idxToItem.getD i [], 1 - rowDist dist vectors q i))) ∧
      idxs.Nodup ∧ (∀ i ∈ idxs, i < vectors.length ∧ i ≠ q) ∧ idxs.Pairwise (fun i j => rowDist dist vectors q i ≤ rowDist dist vectors q j) ∧
      (∀ i ∈ idxs, ∀ j < vectors.length, j ≠ q → j ∉ idxs → rowDist dist vectors q i ≤ rowDist dist vectors q j) ∧
      (topk ≤ 0 → idxs.length = vectors.length - 1) ∧
      (0 < topk → min topk.toNat (vectors.length - 1) ≤ idxs.length ∧ idxs.length ≤ topk.toNat + 1 ∧
        (((List.range vectors.length).filter (fun j => decide (j ≠ q ∧ rowDist dist vectors q j ≤ rowDist dist vectors q q))).length ≤ topk.toNat →
          idxs.length = min topk.toNat (vectors.length - 1))) := by
  obtain ⟨v, hvq⟩ : ∃ v, vectors[q]? = some v := ⟨vectors[q], List.getElem?_eq_getElem hv⟩
  have hpy : pyIndex vectors (q : Int) = .ok v := by
    unfold pyIndex getItem
    simp only
    rw [if_neg (by omega), if_neg (by omega)]
    simp [hvq]
  obtain ⟨hp, hs⟩ := ha (vectors.map (dist v))
  rw [List.length_map] at hp
  have hd : ∀ i, i < vectors.length → (vectors.map (dist v)).getD i 0 = rowDist dist vectors q i := by
    intro i hi
    unfold rowDist
    rw [hvq, List.getElem?_eq_getElem hi]
    simp [List.getD, hi]
  obtain ⟨o, ho⟩ : ∃ o, argsort (vectors.map (dist v)) = o := ⟨_, rfl⟩
  rw [ho] at hp hs
  have homem : ∀ i, i ∈ o ↔ i < vectors.length := fun i => by rw [hp.mem_iff, List.mem_range]
  have hond : o.Nodup := hp.nodup_iff.2 List.nodup_range
  have holen : o.length = vectors.length := by rw [hp.length_eq, List.length_range]
  have hs' : o.Pairwise (fun i j => rowDist dist vectors q i ≤ rowDist dist vectors q j) := by
    refine List.Pairwise.imp_of_mem ?_ hs
    intro a b h1 h2 h
    rwa [hd a ((homem a).1 h1), hd b ((homem b).1 h2)] at h
  obtain ⟨k, hk⟩ : ∃ k, k = if topk > 0 then (topk + 1).toNat else vectors.length := ⟨_, rfl⟩
  have hidx : (if topk > 0 then o.take (topk + 1).toNat else o) = o.take k := by
    rw [hk]; split
    · rfl
    · rw [List.take_of_length_le (by omega)]
  have hmap : ∀ is : List Nat, (∀ i ∈ is, i < vectors.length) → is.mapM (m := PyM) (fun i => match getItem idxToItem i with
        | .error e => .error e
        | .ok w => .ok (w, 1 - (vectors.map (dist v)).getD i 0)) = .ok (is.map (fun i => (idxToItem.getD i [], 1 - rowDist dist vectors q i))) := by
    intro is
    induction is with
    | nil => intro _; rfl
    | cons i is ih =>
      intro h
      rw [List.mapM_cons, ih (fun j hj => h j (by simp [hj]))]
      have h1 := h i (by simp)
      have : getItem idxToItem i = .ok (idxToItem.getD i []) := by
        unfold getItem
        rw [List.getElem?_eq_getElem (by omega)]
        simp [List.getD, List.getElem?_eq_getElem (show i < idxToItem.length by omega)]
      rw [this, hd i h1]
      rfl
  have hdrop : o.take k ++ o.drop k = o := List.take_append_drop _ _
  have hcnt : ∀ l : List Nat, l.Nodup → (q ∈ l → (l.filter (fun i => decide (i ≠ q))).length = l.length - 1) ∧ (q ∉ l → (l.filter (fun i => decide (i ≠ q))).length = l.length) := by
    intro l
    induction l with
    | nil => intro _; simp
    | cons a l ih =>
      intro hn
      rw [List.nodup_cons] at hn
      obtain ⟨i1, i2⟩ := ih hn.2
      by_cases haq : a = q
      · subst haq
        rw [List.filter_cons_of_neg (by simp)]
        exact ⟨fun _ => by rw [i2 hn.1, List.length_cons]; omega, fun h => absurd (by simp) h⟩
      · rw [List.filter_cons_of_pos (by simpa using haq), List.length_cons, List.length_cons]
        refine ⟨fun h => ?_, fun h => ?_⟩
        · rcases List.mem_cons.1 h with h | h
          · exact absurd h.symm haq
          · have := List.length_pos_of_mem h
            rw [i1 h]; omega
        · rw [i2 (fun hm => h (by simp [hm]))]
  refine ⟨(o.take k).filter (fun i => decide (i ≠ q)), ?_, ?_, ?_, ?_, ?_, ?_, ?_⟩
  · unfold mostSimilar Dict.getD
    rw [hq]
    simp only [Option.getD_some]
    rw [if_neg (by omega), hpy]
    simp only
    rw [ho, hidx]
    have : (fun i : Nat => decide ((i : Int) ≠ (q : Int))) = (fun i => decide (i ≠ q)) := by
      funext i; congr 1; rw [eq_iff_iff]; omega
    rw [this]
    refine hmap _ (fun i hi => (homem i).1 ?_)
    exact List.take_subset _ _ (List.mem_filter.1 hi).1
  · exact (hond.sublist (List.take_sublist _ _)).filter _
  · intro i hi
    rw [List.mem_filter, decide_eq_true_iff] at hi
    exact ⟨(homem i).1 (List.take_subset _ _ hi.1), hi.2⟩
  · exact (hs'.sublist (List.take_sublist _ _)).sublist List.filter_sublist
  · intro i hi j hj hjq hjn
    rw [List.mem_filter, decide_eq_true_iff] at hi
    have hjd : j ∈ o.drop k := by
      have : j ∈ o.take k ++ o.drop k := by rw [hdrop]; exact (homem j).2 hj
      rcases List.mem_append.1 this with h | h
      · exact absurd (List.mem_filter.2 ⟨h, by simpa using hjq⟩) hjn
      · exact h
    rw [← hdrop, List.pairwise_append] at hs'
    exact hs'.2.2 i hi.1 j hjd
  · intro h0
    rw [hk, if_neg (by omega), List.take_of_length_le (by omega), (hcnt o hond).1 ((homem q).2 hv), holen]
  · intro h0
    have hkl : (o.take k).length = min (topk.toNat + 1) vectors.length := by
      rw [List.length_take, hk, if_pos h0, holen]; omega
    by_cases hqm : q ∈ o.take k
    · rw [(hcnt _ (hond.sublist (List.take_sublist _ _))).1 hqm, hkl]
      omega
    · rw [(hcnt _ (hond.sublist (List.take_sublist _ _))).2 hqm, hkl]
      have hlt : topk.toNat + 1 < vectors.length := by
        by_contra hge
        refine hqm ?_
        rw [List.take_of_length_le (by rw [hk, if_pos h0]; omega)]
        exact (homem q).2 hv
      refine ⟨by omega, by omega, fun hfew => ?_⟩
      exfalso
      have hsub : (o.take k).Subperm ((List.range vectors.length).filter (fun j => decide (j ≠ q ∧ rowDist dist vectors q j ≤ rowDist dist vectors q q))) := by
        refine (hond.sublist (List.take_sublist _ _)).subperm (fun i hi => ?_)
        have hio := (homem i).1 (List.take_subset _ _ hi)
        rw [List.mem_filter, List.mem_range, decide_eq_true_iff]
        refine ⟨hio, fun h => hqm (h ▸ hi), ?_⟩
        have hqd : q ∈ o.drop k := by
          have : q ∈ o.take k ++ o.drop k := by rw [hdrop]; exact (homem q).2 hv
          rcases List.mem_append.1 this with h | h
          · exact absurd h hqm
          · exact h
        rw [← hdrop, List.pairwise_append] at hs'
        exact hs'.2.2 i hi q hqd
      have := hsub.length_le
      omega

/-- four items, the query and its two twins at distance zero: asked for one, it returns two, and may do so -/
def demoDist (a b : Rat) : Rat := if a < b then b - a else a - b
def demoArgsort (d : List Rat) : List Nat := sorted (fun i j => decide (d.getD i 0 ≤ d.getD j 0)) (List.range d.length)
example : mostSimilar demoDist demoArgsort "나".toList [1, 5, 1, 1] [("가".toList, 0), ("나".toList, 3)] ["가".toList, "큰".toList, "다".toList, "나".toList] 1 =
    .ok [("가".toList, 1), ("다".toList, 1)] := by decide +kernel

/-- the hypotheses hold of a stable sort -/
theorem demoArgsort_ok : IsArgsort demoArgsort := by
  intro d
  refine ⟨sorted_perm _ _, ?_⟩
  have ht : TotalPre (fun i j : Nat => decide (d.getD i 0 ≤ d.getD j 0)) :=
    ⟨fun a b c h1 h2 => by simp only [decide_eq_true_iff] at *; exact Rat.le_trans h1 h2, fun a b => by simp only [decide_eq_true_iff]; exact Rat.le_total⟩
  exact (pairwise_sorted ht _).imp (fun h => by simpa using h)
end

end Props
