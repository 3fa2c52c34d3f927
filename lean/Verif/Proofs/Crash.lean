import Verif.Py.File
import Verif.Props.C22Load
import Mathlib.Data.List.Forall2
import Mathlib.Data.List.Induction
/-! Files cut off while they were being written (C98): the lines that are left, and what a cut-off number reads as. -/
namespace Crash
open Py

/-- what is left of a text written line by line: the first `k` lines, and the beginning `q` of the next one -/
theorem prefix_lines (ls : List Str) (t : Str) (h : t <+: ls.flatMap (fun l => l ++ ['\n'])) :
    ∃ k q, k ≤ ls.length ∧ t = (ls.take k).flatMap (fun l => l ++ ['\n']) ++ q ∧ (q = [] ∨ ∃ l, ls[k]? = some l ∧ q <+: l) := by
  induction ls generalizing t with
  | nil =>
    obtain rfl : t = [] := List.prefix_nil.1 h
    exact ⟨0, [], Nat.le_refl _, rfl, Or.inl rfl⟩
  | cons l ls ih =>
    rw [List.flatMap_cons, List.append_assoc] at h
    by_cases hle : t.length ≤ l.length
    · refine ⟨0, t, Nat.zero_le _, rfl, Or.inr ⟨l, rfl, ?_⟩⟩
      exact List.prefix_of_prefix_length_le h (List.prefix_append _ _) hle
    · obtain ⟨t', rfl⟩ := List.prefix_of_prefix_length_le (List.prefix_append l _) h (by omega)
      rw [List.prefix_append_right_inj] at h
      cases t' with
      | nil => simp at hle
      | cons c t' =>
        rw [List.singleton_append, List.cons_prefix_cons] at h
        obtain ⟨rfl, h⟩ := h
        obtain ⟨k, q, h1, h2, h3⟩ := ih t' h
        refine ⟨k + 1, q, by simpa using h1, ?_, by simpa using h3⟩
        rw [h2]
        simp

theorem linesGo_none (cur w : Str) (hw : '\n' ∉ w) : linesGo cur w = if cur ++ w = [] then [] else [cur ++ w] := by
  induction w generalizing cur with
  | nil => simp [linesGo]
  | cons c w ih =>
    have hc : c ≠ '\n' := by rintro rfl; simp at hw
    rw [linesGo, if_neg hc, ih _ (fun h => hw (List.mem_cons_of_mem _ h))]
    simp

theorem linesGo_lines (ls : List Str) (h : ∀ l ∈ ls, '\n' ∉ l) (q : Str) :
    linesGo [] (ls.flatMap (fun l => l ++ ['\n']) ++ q) = ls.map (· ++ ['\n']) ++ linesGo [] q := by
  induction ls with
  | nil => rfl
  | cons l ls ih =>
    rw [List.flatMap_cons, List.append_assoc, List.append_assoc, List.singleton_append, linesGo_append _ _ _ (h l (by simp)),
      ih (fun x hx => h x (by simp [hx]))]
    simp

/-- the lines read from what is left -/
theorem fileLines_cut (ls : List Str) (h : ∀ l ∈ ls, '\n' ∉ l ∧ '\r' ∉ l) (q : Str) (hq : '\n' ∉ q ∧ '\r' ∉ q) :
    fileLines (ls.flatMap (fun l => l ++ ['\n']) ++ q) = ls.map (· ++ ['\n']) ++ (if q = [] then [] else [q]) := by
  have hcr : '\r' ∉ ls.flatMap (fun l => l ++ ['\n']) ++ q := by
    intro hm
    rcases List.mem_append.1 hm with hm | hm
    · obtain ⟨l, hl, hm⟩ := List.mem_flatMap.1 hm
      rcases List.mem_append.1 hm with hm | hm
      · exact (h l hl).2 hm
      · simp at hm
    · exact hq.2 hm
  unfold fileLines
  rw [univNewlines_of_no_cr _ hcr, linesGo_lines ls (fun l hl => (h l hl).1), linesGo_none _ _ hq.1]
  rfl

/-- the number made of the first digits of a number -/
theorem digits_value (e : Str) (h : ∀ c ∈ e, ∃ d < 10, c = digitChar d) :
    ∃ v < 10 ^ e.length, ∀ acc, parseNatGo acc e = some (acc * 10 ^ e.length + v) := by
  induction e with
  | nil => exact ⟨0, by simp, fun acc => by simp [parseNatGo]⟩
  | cons c e ih =>
    obtain ⟨v, hv, hp⟩ := ih (fun c hc => h c (by simp [hc]))
    obtain ⟨d, hd, rfl⟩ := h c (by simp)
    refine ⟨d * 10 ^ e.length + v, ?_, ?_⟩
    · rw [List.length_cons, Nat.pow_succ]
      have : d * 10 ^ e.length ≤ 9 * 10 ^ e.length := Nat.mul_le_mul_right _ (by omega)
      omega
    · intro acc
      rw [parseNatGo, digitVal_digitChar hd]
      dsimp only
      rw [hp, List.length_cons, Nat.pow_succ]
      congr 1
      rw [Nat.add_mul, Nat.mul_assoc, Nat.mul_comm 10]
      omega

theorem parseNatGo_append (s t : Str) (acc : Nat) : parseNatGo acc (s ++ t) = (parseNatGo acc s).bind (fun a => parseNatGo a t) := by
  induction s generalizing acc with
  | nil => rfl
  | cons c s ih => simp only [List.cons_append, parseNatGo]; cases digitVal c <;> simp [ih]

/-- a positive number does not begin with 0 -/
theorem natStr_head (fuel n : Nat) (h : n < fuel) (hn : 0 < n) : ∃ x rest, x < 10 ∧ 0 < x ∧ natStrGo fuel n = digitChar x :: rest := by
  induction fuel generalizing n with
  | zero => omega
  | succ fuel ih =>
    simp only [natStrGo]
    by_cases h1 : n < 10
    · rw [if_pos h1]; exact ⟨n, [], h1, hn, rfl⟩
    · rw [if_neg h1]
      obtain ⟨x, rest, hx, hx1, hh⟩ := ih (n / 10) (by omega) (by omega)
      exact ⟨x, rest ++ [digitChar (n % 10)], hx, hx1, by rw [hh]; rfl⟩

/-- a cut-off number reads as the number without its last `j` digits -/
theorem parse_cut (n : Nat) (d : Str) (hd : d ≠ []) (hp : d <+: natStr n) :
    ∃ j, parseInt d = .ok ((n / 10 ^ j : Nat) : Int) ∧ (0 < n → 0 < n / 10 ^ j) := by
  obtain ⟨e, he⟩ := hp
  obtain ⟨h1, h2, h3⟩ := natStrGo_spec (n + 1) n (by omega)
  have hs : natStrGo (n + 1) n = d ++ e := he.symm
  rw [hs] at h2 h3
  have hdd : ∀ c ∈ d, ∃ x < 10, c = digitChar x := fun c hc => h2 c (List.mem_append.2 (Or.inl hc))
  obtain ⟨v, hv, hpv⟩ := digits_value d hdd
  obtain ⟨u, hu, hpu⟩ := digits_value e (fun c hc => h2 c (List.mem_append.2 (Or.inr hc)))
  have h4 := h3 0
  rw [parseNatGo_append, hpv, Option.bind_some, hpu] at h4
  simp only [Nat.zero_mul, Nat.zero_add, Option.some.injEq] at h4
  have hdiv : n / 10 ^ e.length = v := by
    rw [← h4, Nat.mul_comm v, Nat.mul_add_div (Nat.pow_pos (by omega)), Nat.div_eq_of_lt hu, Nat.add_zero]
  refine ⟨e.length, ?_, ?_⟩
  · rw [parseInt_of_digits hd hdd, hdiv]
    simp [parseNat, hd, hpv]
  · intro hn
    rw [hdiv]
    apply Nat.pos_of_ne_zero
    intro h0
    obtain ⟨x, rest, hx, hx1, hh⟩ := natStr_head (n + 1) n (by omega) hn
    cases d with
    | nil => exact hd rfl
    | cons c d =>
      rw [hs, List.cons_append] at hh
      injection hh with hc hr
      obtain ⟨v', _, hpv'⟩ := digits_value d (fun c hc => hdd c (by simp [hc]))
      have h5 := hpv 0
      rw [parseNatGo, hc, digitVal_digitChar hx] at h5
      dsimp only at h5
      rw [hpv', h0] at h5
      simp only [Nat.zero_mul, Nat.zero_add, Option.some.injEq] at h5
      have := Nat.mul_pos hx1 (Nat.pow_pos (n := d.length) (show 0 < 10 by omega))
      omega

theorem prefix_append {a b q : Str} (h : q <+: a ++ b) : q <+: a ∨ ∃ b', b' ≠ [] ∧ q = a ++ b' ∧ b' <+: b := by
  by_cases hle : q.length ≤ a.length
  · exact Or.inl (List.prefix_of_prefix_length_le h (List.prefix_append _ _) hle)
  · obtain ⟨b', rfl⟩ := List.prefix_of_prefix_length_le (List.prefix_append a b) h (by omega)
    rw [List.prefix_append_right_inj] at h
    exact Or.inr ⟨b', by rintro rfl; simp at hle, rfl, h⟩

theorem splitWs_field (w s : Str) (hw : Props.Writable w) (c : Char) (hc : isSpace c = true) : splitWs (w ++ c :: s) = w :: splitWs s := by
  unfold splitWs
  rw [splitGo_nospace_append w _ [] hw.2]
  simp only [List.nil_append, splitGo, hc, if_true, if_neg hw.1]

theorem splitWs_word (w : Str) (hw : Props.Writable w) : splitWs w = [w] := by
  have := splitGo_nospace_append w [] [] hw.2
  rw [List.append_nil] at this
  unfold splitWs
  rw [this]
  simp [splitGo, hw.1]

theorem writable_prefix {q w : Str} (hw : Props.Writable w) (hq : q ≠ []) (h : q <+: w) : Props.Writable q :=
  ⟨hq, fun c hc => hw.2 c (h.subset hc)⟩

theorem intStr_nonneg (c : Int) (h : 0 ≤ c) : intStr c = natStr c.toNat := by
  obtain ⟨n, rfl⟩ := Int.eq_ofNat_of_zero_le h
  rfl

/-- a cut-off count -/
theorem count_cut (c : Int) (hc : 0 ≤ c) (d : Str) (hd : d ≠ []) (h : d <+: intStr c) :
    ∃ j : Nat, parseInt d = .ok (c / 10 ^ j) ∧ (0 < c → 0 < c / 10 ^ j) := by
  obtain ⟨n, rfl⟩ := Int.eq_ofNat_of_zero_le hc
  obtain ⟨j, h1, h2⟩ := parse_cut n d hd h
  have e : ((n / 10 ^ j : Nat) : Int) = (n : Int) / 10 ^ j := by push_cast; rfl
  exact ⟨j, by rw [h1, e], fun hn => by rw [← e]; exact_mod_cast h2 (by exact_mod_cast hn)⟩

theorem nonl_of_prefix {q l : Str} (h : q <+: l) (hl : '\n' ∉ l ∧ '\r' ∉ l) : '\n' ∉ q ∧ '\r' ∉ q :=
  ⟨fun hm => hl.1 (h.subset hm), fun hm => hl.2 (h.subset hm)⟩

theorem nospace_nl {w : Str} (h : ∀ c ∈ w, isSpace c = false) : '\n' ∉ w ∧ '\r' ∉ w := by
  refine ⟨fun hm => ?_, fun hm => ?_⟩ <;> have := h _ hm <;> revert this <;> decide

/-- the cut-off line of an `EojeolCounter` file: no entry, or the entry with a count that has lost digits -/
theorem counter_line (w : Str) (c : Int) (hw : Props.Writable w) (hc : 0 ≤ c) (q : Str) (hq : q ≠ []) (h : q <+: EC.saveLine (w, c)) :
    (¬ ∃ e, Props.CountLine q e) ∨ ∃ j : Nat, Props.CountLine q (w, c / 10 ^ j) ∧ (0 < c → 0 < c / 10 ^ j) := by
  have hsp : isSpace ' ' = true := by decide
  have h : q <+: w ++ ' ' :: intStr c := h
  rcases prefix_append h with h' | ⟨b, hb, rfl, h'⟩
  · left
    rintro ⟨e, d, h1, _⟩
    rw [splitWs_word q (writable_prefix hw hq h')] at h1
    cases h1
  · cases b with
    | nil => exact absurd rfl hb
    | cons x d =>
      rw [List.cons_prefix_cons] at h'
      obtain ⟨rfl, h'⟩ := h'
      by_cases hd : d = []
      · left
        rintro ⟨e, d', h1, _⟩
        rw [hd, splitWs_field w [] hw ' ' hsp] at h1
        cases h1
      · right
        obtain ⟨j, h1, h2⟩ := count_cut c hc d hd h'
        refine ⟨j, ⟨d, ?_, h1⟩, h2⟩
        rw [splitWs_field w d hw ' ' hsp, splitWs_word d (writable_prefix (intStr_word c) hd h')]

/-- a whole line of an `EojeolCounter` file -/
theorem counter_full (w : Str) (c : Int) (hw : Props.Writable w) : Props.CountLine (EC.saveLine (w, c) ++ ['\n']) (w, c) := by
  refine ⟨intStr c, ?_, parseInt_intStr c⟩
  have e : EC.saveLine (w, c) ++ ['\n'] = w ++ ' ' :: (intStr c ++ '\n' :: []) := by simp [EC.saveLine]
  rw [e, splitWs_field w _ hw ' ' (by decide), splitWs_field _ _ (intStr_word c) '\n' (by decide)]
  rfl

/-! ### graph files -/

open Nested Props

/-- the cut-off line of an `LRGraph` file: no entry; the entry with a count that has lost digits; or a right part that reads as a number, taken for the count of the left part alone -/
theorem graph_line (l r : Str) (c : Int) (hl : Writable l) (hr : r = [] ∨ Writable r) (hc : 0 ≤ c) (q : Str) (hq : q ≠ []) (h : q <+: LR.saveLine l (r, c)) :
    ((¬ ∃ l' rc, GraphLine q l' rc) ∧ splitWs q ≠ []) ∨ (∃ j : Nat, GraphLine q l (r, c / 10 ^ j) ∧ (0 < c → 0 < c / 10 ^ j)) ∨
      ∃ r' n, r' ≠ [] ∧ r' <+: r ∧ parseInt r' = .ok n ∧ GraphLine q l ([], n) := by
  have hsp : isSpace ' ' = true := by decide
  have bad1 : ∀ x, splitWs q = [x] → (¬ ∃ l' rc, GraphLine q l' rc) ∧ splitWs q ≠ [] := by
    intro x hx
    refine ⟨?_, by rw [hx]; simp⟩
    rintro ⟨l', rc, d, ⟨h1, _⟩ | h1, _⟩ <;> rw [hx] at h1 <;> cases h1
  have two : ∀ m, Writable m → m <+: r → splitWs q = [l, m] → ((¬ ∃ l' rc, GraphLine q l' rc) ∧ splitWs q ≠ []) ∨
      ∃ r' n, r' ≠ [] ∧ r' <+: r ∧ parseInt r' = .ok n ∧ GraphLine q l ([], n) := by
    intro m hm hmr hs
    cases hp : parseInt m with
    | ok n => exact Or.inr ⟨m, n, hm.1, hmr, hp, m, Or.inl ⟨hs, rfl⟩, hp⟩
    | error e =>
      refine Or.inl ⟨?_, by rw [hs]; simp⟩
      rintro ⟨l', rc, d, ⟨h1, _⟩ | h1, h2⟩
      · rw [hs] at h1; cases h1; rw [hp] at h2; cases h2
      · rw [hs] at h1; cases h1
  have e : LR.saveLine l (r, c) = l ++ ' ' :: (r ++ ' ' :: intStr c) := by simp [LR.saveLine]
  rw [e] at h
  rcases prefix_append h with h' | ⟨b, hb, rfl, h'⟩
  · exact Or.inl (bad1 q (splitWs_word q (writable_prefix hl hq h')))
  · cases b with
    | nil => exact absurd rfl hb
    | cons x m =>
      clear hb
      rw [List.cons_prefix_cons] at h'
      obtain ⟨rfl, h'⟩ := h'
      have hs : splitWs (l ++ ' ' :: m) = l :: splitWs m := splitWs_field l m hl ' ' hsp
      by_cases hm : m = []
      · exact Or.inl (bad1 l (by rw [hs, hm]; rfl))
      rcases prefix_append h' with h2 | ⟨b, hb, rfl, h2⟩
      · have hrw : Writable r := hr.resolve_left (by rintro rfl; exact hm (List.prefix_nil.1 h2))
        rcases two m (writable_prefix hrw hm h2) h2 (by rw [hs, splitWs_word m (writable_prefix hrw hm h2)]) with h3 | h3
        · exact Or.inl h3
        · exact Or.inr (Or.inr h3)
      · cases b with
        | nil => exact absurd rfl hb
        | cons x d =>
          rw [List.cons_prefix_cons] at h2
          obtain ⟨rfl, h2⟩ := h2
          rcases hr with rfl | hr
          · have hs2 : splitWs ([] ++ ' ' :: d) = splitWs d := by simp [splitWs, splitGo, hsp]
            rw [hs2] at hs
            by_cases hd : d = []
            · exact Or.inl (bad1 l (by rw [hs, hd]; rfl))
            · obtain ⟨j, h3, h4⟩ := count_cut c hc d hd h2
              refine Or.inr (Or.inl ⟨j, ⟨d, Or.inl ⟨?_, rfl⟩, h3⟩, h4⟩)
              rw [hs, splitWs_word d (writable_prefix (intStr_word c) hd h2)]
          · rw [splitWs_field r d hr ' ' hsp] at hs
            by_cases hd : d = []
            · rcases two r hr (List.prefix_refl r) (by rw [hs, hd]; rfl) with h3 | h3
              · exact Or.inl h3
              · exact Or.inr (Or.inr h3)
            · obtain ⟨j, h3, h4⟩ := count_cut c hc d hd h2
              refine Or.inr (Or.inl ⟨j, ⟨d, Or.inr ?_, h3⟩, h4⟩)
              rw [hs, splitWs_word d (writable_prefix (intStr_word c) hd h2)]

/-- a whole line of an `LRGraph` file -/
theorem graph_full (l r : Str) (c : Int) (hl : Writable l) (hr : r = [] ∨ Writable r) : GraphLine (LR.saveLine l (r, c) ++ ['\n']) l (r, c) := by
  have hsp : isSpace ' ' = true := by decide
  have e : LR.saveLine l (r, c) ++ ['\n'] = l ++ ' ' :: (r ++ ' ' :: (intStr c ++ '\n' :: [])) := by simp [LR.saveLine]
  have e2 : splitWs (intStr c ++ '\n' :: []) = [intStr c] := splitWs_field _ _ (intStr_word c) '\n' (by decide)
  refine ⟨intStr c, ?_, parseInt_intStr c⟩
  rw [e, splitWs_field l _ hl ' ' hsp]
  rcases hr with rfl | hr
  · left
    have : splitWs ([] ++ ' ' :: (intStr c ++ '\n' :: [])) = splitWs (intStr c ++ '\n' :: []) := by simp [splitWs, splitGo, hsp]
    rw [this, e2]
    exact ⟨rfl, rfl⟩
  · right
    rw [splitWs_field r _ hr ' ' hsp, e2]

/-- what the lines read so far say about a pair: the last one counts -/
def lastVal (xs : List (Str × Str × Int)) (a b : Str) : Option Int := ((xs.filter (fun x => decide (x.1 = a ∧ x.2.1 = b))).getLast?).map (·.2.2)

theorem lastVal_append (xs : List (Str × Str × Int)) (x : Str × Str × Int) (a b : Str) :
    lastVal (xs ++ [x]) a b = if x.1 = a ∧ x.2.1 = b then some x.2.2 else lastVal xs a b := by
  unfold lastVal
  rw [List.filter_append]
  by_cases h : x.1 = a ∧ x.2.1 = b
  · rw [if_pos h, List.filter_cons_of_pos (by simpa using h), List.filter_nil, List.getLast?_concat]; rfl
  · rw [if_neg h, List.filter_cons_of_neg (by simpa using h), List.filter_nil, List.append_nil]

/-- the graph held by the loop of `load` -/
def held (o : Nested Str) (l : Str) (d : Dict Str Int) : Nested Str := if d = [] then o else Dict.set o l d

theorem lr_lines (xs : List (Str × Str × Int)) (hs : xs.Pairwise (fun x y => strLe x.1 y.1 = true)) (lines : List Str)
    (h : List.Forall₂ (fun line x => GraphLine line x.1 x.2) lines xs) :
    ∃ o l d, (∀ rest, LR.loadGo [] [] [] (lines ++ rest) = LR.loadGo o l d rest) ∧ Dict.WF o ∧ Dict.WF d ∧ (∀ a ∈ Dict.keys o, a ∈ xs.map (·.1)) ∧
      l ∉ Dict.keys o ∧ (xs.getLast?.map (·.1)).getD [] = l ∧ (xs ≠ [] ↔ d ≠ []) ∧ (∀ a t, (a, t) ∈ o → Dict.WF t ∧ t ≠ []) ∧
      ∀ a b, get2 (held o l d) a b = lastVal xs a b := by
  induction xs using List.reverseRecOn generalizing lines with
  | nil =>
    cases h
    exact ⟨[], [], [], fun _ => rfl, Dict.wf_nil, Dict.wf_nil, by simp [Dict.keys], by simp [Dict.keys], rfl, by simp, by simp, fun _ _ => rfl⟩
  | append_singleton xs x ih =>
    have h1 := List.forall₂_take_append _ _ _ h
    have h2 := List.forall₂_drop_append _ _ _ h
    have hsplit := List.take_append_drop xs.length lines
    generalize lines.take xs.length = ls at h1 hsplit
    generalize lines.drop xs.length = ls2 at h2 hsplit
    obtain ⟨a, ls3, ha, hn, rfl⟩ := List.forall₂_cons_right_iff.1 h2
    obtain rfl := List.forall₂_nil_right_iff.1 hn
    subst hsplit
    rw [List.pairwise_append] at hs
    obtain ⟨hs1, _, hs2⟩ := hs
    obtain ⟨o, l, d, g1, g2, g3, g4, g5, g6, g7, g8, g9⟩ := ih hs1 ls h1
    obtain ⟨l', r', c'⟩ := x
    dsimp only at ha
    have hl' : l' ≠ [] := by
      obtain ⟨c, e | e, _⟩ := ha
      · exact splitWs_nonempty (s := a) (by rw [e.1]; simp)
      · exact splitWs_nonempty (s := a) (by rw [e]; simp)
    have hgo : ∀ rest, LR.loadGo [] [] [] ((ls ++ [a]) ++ rest) =
        (if l' = l then LR.loadGo o l' (Dict.set d r' c') rest else LR.loadGo (held o l d) l' (Dict.set [] r' c') rest) := by
      intro rest
      rw [List.append_assoc, g1, List.singleton_append, LR.loadGo, gline ha]
      by_cases e : l' = l
      · rw [if_pos e, if_pos e]
      · rw [if_neg e, if_neg e]; rfl
    have hset : ∀ (d : Dict Str Int) (r : Str) (c : Int), Dict.set d r c ≠ [] := by
      intro d r c hn
      have := Dict.get?_set d r r c
      rw [hn, if_pos rfl] at this
      cases this
    have hlast : (((xs ++ [(l', r', c')]).getLast?).map (·.1)).getD [] = l' := by rw [List.getLast?_concat]; rfl
    by_cases e : l' = l
    · subst e
      have hd : xs ≠ [] := by rintro rfl; exact hl' g6.symm
      refine ⟨o, l', Dict.set d r' c', fun rest => by rw [hgo, if_pos rfl], g2, g3.set _ _, fun a ha => by simpa using Or.inl (by simpa using g4 a ha), g5, hlast, ⟨fun _ => hset _ _ _, fun _ => by simp⟩, g8, ?_⟩
      intro x y
      have hd' := g7.1 hd
      have h9 := g9 x y
      unfold held at h9 ⊢
      rw [if_neg hd'] at h9
      rw [if_neg (hset _ _ _), lastVal_append, ← h9]
      unfold get2
      rw [Dict.get?_set, Dict.get?_set]
      by_cases hx : l' = x
      · subst hx
        rw [if_pos rfl, if_pos rfl, Option.bind_some, Option.bind_some, Dict.get?_set]
        by_cases hy : r' = y <;> simp [hy]
      · rw [if_neg hx, if_neg hx]
        simp [hx]
    · have hnew : l' ∉ xs.map (·.1) := by
        intro hm
        obtain ⟨y, hy, e1⟩ := List.mem_map.1 hm
        rcases List.eq_nil_or_concat xs with rfl | ⟨as, z, rfl⟩
        · cases hy
        · rw [List.concat_eq_append] at *
          rw [List.getLast?_concat] at g6
          have hz : z.1 = l := g6
          have h5 : strLe z.1 l' = true := hs2 z (by simp) (l', r', c') (by simp)
          rcases List.mem_append.1 hy with hy | hy
          · have h6 := (List.pairwise_append.1 hs1).2.2 y hy z (by simp)
            rw [e1] at h6
            exact e (strLe_antisymm _ _ h6 h5 ▸ hz)
          · rw [List.mem_singleton.1 hy] at e1
            exact e (e1 ▸ hz)
      have hkeys : ∀ a, a ∈ Dict.keys (held o l d) → a ∈ xs.map (·.1) := by
        intro a ha
        unfold held at ha
        split at ha
        · exact g4 a ha
        · rename_i hd
          rcases (Dict.mem_keys_set _ _ _ _).1 ha with rfl | ha
          · have hx : xs ≠ [] := g7.2 hd
            rcases List.eq_nil_or_concat xs with rfl | ⟨as, z, rfl⟩
            · exact absurd rfl hx
            · rw [List.concat_eq_append] at *
              rw [List.getLast?_concat] at g6
              have hz : z.1 = a := g6
              exact List.mem_map.2 ⟨z, by simp, hz⟩
          · exact g4 a ha
      refine ⟨held o l d, l', Dict.set [] r' c', fun rest => by rw [hgo, if_neg e], ?_, Dict.wf_nil.set _ _, fun a ha => by simpa using Or.inl (by simpa using hkeys a ha),
        fun hm => hnew (hkeys _ hm), hlast, ⟨fun _ => hset _ _ _, fun _ => by simp⟩, ?_, ?_⟩
      · unfold held; split
        · exact g2
        · exact g2.set _ _
      · intro a t hm
        unfold held at hm
        split at hm
        · exact g8 a t hm
        · rename_i hd
          have := (Dict.mem_iff_get? (g2.set l d)).1 hm
          rw [Dict.get?_set] at this
          split at this
          · cases this; exact ⟨g3, hd⟩
          · exact g8 a t (Dict.mem_of_get? this)
      · intro x y
        rw [lastVal_append, ← g9]
        have h1 : held (held o l d) l' (Dict.set [] r' c') = Dict.set (held o l d) l' (Dict.set [] r' c') := if_neg (hset _ _ _)
        rw [h1]
        have h0 : Dict.get? (held o l d) l' = none := (Dict.get?_eq_none_iff _ _).2 (fun hm => hnew (hkeys _ hm))
        unfold get2
        rw [Dict.get?_set]
        by_cases hx : l' = x
        · subst hx
          rw [if_pos rfl, Option.bind_some, Dict.get?_set, h0]
          by_cases hy : r' = y <;> simp [hy]
        · rw [if_neg hx]
          simp [hx]

end Crash
