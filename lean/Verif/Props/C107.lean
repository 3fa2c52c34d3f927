import Verif.Props.C64
import Verif.Props.C78
import Verif.Props.C102
/-!
C107: a corpus that says everything `k` times. Cohesion does not change; branching entropy and accessor variety are the same for every
`k ≥ 2` (but not for `k = 1`, because neighbours across a word boundary that are seen once are dropped); the ratios `NewsNounExtractor.predict`
reports do not change and its frequency is multiplied by `k`; the PMI of a bigram grows by exactly `2 log k`.
-/
namespace Props
open Py

/-- the corpus `k` times over -/
def timesOver (k : Nat) (sents : List Str) : List Str := (List.replicate k sents).flatten

private theorem countP_repeated {α : Type} (f : Str → List α) (P : α → Bool) (sents : List Str) (k : Nat) :
    ((timesOver k sents).flatMap f).countP P = k * (sents.flatMap f).countP P := by
  unfold timesOver
  induction k with
  | zero => simp
  | succ k ih => rw [List.replicate_succ, List.flatten_cons, List.flatMap_append, List.countP_append, ih, Nat.succ_mul, Nat.add_comm]

private theorem repeated_ne_nil {sents : List Str} {k : Nat} (hk : 1 ≤ k) (h : sents ≠ []) : timesOver k sents ≠ [] := by
  cases k with
  | zero => omega
  | succ k => unfold timesOver; rw [List.replicate_succ, List.flatten_cons]; simp [h]

private theorem prefix_repeated (m : Int) (sents : List Str) (k : Nat) (w : Str) :
    prefixCount m (tokensOf (timesOver k sents)) w = k * prefixCount m (tokensOf sents) w := countP_repeated _ _ _ _

private theorem suffix_repeated (m : Int) (sents : List Str) (k : Nat) (w : Str) :
    suffixCount m (tokensOf (timesOver k sents)) w = k * suffixCount m (tokensOf sents) w := countP_repeated _ _ _ _

private theorem before_repeated (m : Int) (sents : List Str) (k : Nat) (w : Str) (c : Char) :
    beforeCount m (timesOver k sents) w c = k * beforeCount m sents w c := countP_repeated _ _ _ _

private theorem after_repeated (m : Int) (sents : List Str) (k : Nat) (w : Str) (c : Char) :
    afterCount m (timesOver k sents) w c = k * afterCount m sents w c := countP_repeated _ _ _ _

private theorem side_scaled {t t' : Dict Str Nat} {k : Nat} (hk : 1 ≤ k) (h : ∀ w, Dict.get? t' w = (Dict.get? t w).map (k * ·)) (f : Nat) (key : Str) (len : Nat) :
    WX.cohesionSide t' (k * f) key len = WX.cohesionSide t f key len := by
  unfold WX.cohesionSide
  by_cases hf : f = 0
  · subst hf; simp
  · rw [if_neg hf, if_neg (by simp [hf]; omega), h key]
    have hk' : (k : ℝ) ≠ 0 := by exact_mod_cast (show k ≠ 0 by omega)
    cases hg : Dict.get? t key with
    | none => rfl
    | some n =>
      cases n with
      | zero => rfl
      | succ n =>
        rw [Option.map_some]
        cases hkn : k * (n + 1) with
        | zero => exfalso; have := Nat.mul_eq_zero.1 hkn; omega
        | succ z =>
          show Except.ok ((((k * f : Nat) : ℝ) / ((z + 1 : Nat) : ℝ)) ^ ((1 : ℝ) / ((len : ℝ) - 1))) =
            Except.ok (((f : ℝ) / ((n + 1 : Nat) : ℝ)) ^ ((1 : ℝ) / ((len : ℝ) - 1)))
          rw [← hkn, Nat.cast_mul, Nat.cast_mul k, mul_div_mul_left _ _ hk']

/-- **C107** With a `min_frequency` of at most 1 and no intermediate pruning, repeating the corpus multiplies all frequencies and leaves the
    cohesion scores of all words as they are. -/
theorem C107_cohesion (p : WX.Params) (s0 : WX.State) (sents : List Str) (hne : sents ≠ []) (prune : Int) (hp : prune ≤ 0) (hm : p.minFrequency ≤ 1)
    (k : Nat) (hk : 1 ≤ k) :
    ∃ s sk, WX.train p s0 sents prune false = .ok s ∧ WX.train p s0 (timesOver k sents) prune false = .ok sk ∧ ∀ w,
      WX.frequency sk w = (k * (WX.frequency s w).1, k * (WX.frequency s w).2) ∧ WX.cohesion sk w = WX.cohesion s w := by
  obtain ⟨s, e, g⟩ := C30_counts p s0 sents prune false hne hp (.inl rfl)
  obtain ⟨sk, ek, gk⟩ := C30_counts p s0 (timesOver k sents) prune false (repeated_ne_nil hk hne) hp (.inl rfl)
  have scale : ∀ n : Nat, (if 0 < k * n ∧ p.minFrequency ≤ ((k * n : Nat) : Int) then some (k * n) else none) =
      (if 0 < n ∧ p.minFrequency ≤ (n : Int) then some n else none).map (k * ·) := by
    intro n
    by_cases h : 0 < n
    · have h' : 0 < k * n := Nat.mul_pos hk h
      rw [if_pos ⟨h', by omega⟩, if_pos ⟨h, by omega⟩]; rfl
    · have h' : ¬ 0 < k * n := fun x => h (Nat.pos_of_mul_pos_left x)
      rw [if_neg (fun x => h' x.1), if_neg (fun x => h x.1)]; rfl
  have hL : ∀ w, Dict.get? sk.L w = (Dict.get? s.L w).map (k * ·) := by
    intro w; rw [(gk w).1, (g w).1, prefix_repeated, scale]
  have hR : ∀ w, Dict.get? sk.R w = (Dict.get? s.R w).map (k * ·) := by
    intro w; rw [(gk w).2.1, (g w).2.1, suffix_repeated, scale]
  have hd : ∀ x : Option Nat, (x.map (k * ·)).getD 0 = k * x.getD 0 := by intro x; cases x <;> rfl
  have hf : ∀ w, WX.frequency sk w = (k * (WX.frequency s w).1, k * (WX.frequency s w).2) := by
    intro w; unfold WX.frequency Dict.getD; rw [hL, hR, hd, hd]
  refine ⟨s, sk, e, ek, fun w => ⟨hf w, ?_⟩⟩
  unfold WX.cohesion
  rw [hf w]
  dsimp only
  rw [side_scaled hk hL, side_scaled hk hR]

private theorem shannon_perm {a b : List Nat} (h : a.Perm b) : shannon a = shannon b := by
  unfold shannon; rw [h.sum_eq, (h.map _).sum_eq]

private theorem sum_mul (k : Nat) (a : List Nat) : (a.map (k * ·)).sum = k * a.sum := by
  induction a with
  | nil => simp
  | cons x a ih => rw [List.map_cons, List.sum_cons, ih, List.sum_cons, Nat.mul_add]

private theorem shannon_mul {k : Nat} (hk : 1 ≤ k) (a : List Nat) : shannon (a.map (k * ·)) = shannon a := by
  have hk' : (k : ℝ) ≠ 0 := by exact_mod_cast (show k ≠ 0 by omega)
  unfold shannon
  rw [sum_mul, List.map_map]
  congr 3
  funext n
  simp only [Function.comp, Nat.cast_mul, mul_div_mul_left _ _ hk']

/-- **C107** Branching entropy and accessor variety of every word are the same whether the corpus is read `k` or `k'` times, both at least twice. -/
theorem C107_branching (p : WX.Params) (s0 : WX.State) (sents : List Str) (hne : sents ≠ []) (prune : Int) (hp : prune ≤ 0) (hm : p.minFrequency ≤ 1)
    (k k' : Nat) (hk : 2 ≤ k) (hk' : 2 ≤ k') :
    ∃ s s', WX.train p s0 (timesOver k sents) prune false = .ok s ∧ WX.train p s0 (timesOver k' sents) prune false = .ok s' ∧ ∀ w,
      WX.accessorVariety s w = WX.accessorVariety s' w ∧ WX.branchingEntropy s w = WX.branchingEntropy s' w := by
  have one : ∀ k : Nat, 2 ≤ k → ∃ s, WX.train p s0 (timesOver k sents) prune false = .ok s ∧ ∀ w, ∃ xl yl xr yr : List Char,
      xl.Nodup ∧ yl.Nodup ∧ xr.Nodup ∧ yr.Nodup ∧
      (∀ c, c ∈ xl ↔ 0 < suffixCount p.maxRight (tokensOf sents) (c :: w)) ∧ (∀ c, c ∈ yl ↔ 0 < beforeCount p.maxLeft sents w c) ∧
      (∀ c, c ∈ xr ↔ 0 < prefixCount p.maxLeft (tokensOf sents) (w ++ [c])) ∧ (∀ c, c ∈ yr ↔ 0 < afterCount p.maxRight sents w c) ∧
      WX.accessorVariety s w = (xl.length + yl.length, xr.length + yr.length) ∧
      WX.branchingEntropy s w =
        (shannon (xl.map (fun c => suffixCount p.maxRight (tokensOf sents) (c :: w)) ++ yl.map (beforeCount p.maxLeft sents w)),
         shannon (xr.map (fun c => prefixCount p.maxLeft (tokensOf sents) (w ++ [c])) ++ yr.map (afterCount p.maxRight sents w))) := by
    intro k hk
    obtain ⟨s, e, g⟩ := C64_neighbours p s0 (timesOver k sents) prune false (repeated_ne_nil (by omega) hne) hp (.inl rfl)
    refine ⟨s, e, fun w => ?_⟩
    obtain ⟨xl, yl, xr, yr, n1, n2, n3, n4, m1, m2, m3, m4, hav, hbe⟩ := g w
    have q1 : ∀ n : Nat, (0 < k * n ∧ p.minFrequency ≤ ((k * n : Nat) : Int)) ↔ 0 < n := by
      intro n
      constructor
      · rintro ⟨h, _⟩; exact Nat.pos_of_mul_pos_left h
      · intro h; have := Nat.mul_pos (show 0 < k by omega) h; exact ⟨this, by omega⟩
    have q2 : ∀ n : Nat, 2 ≤ k * n ↔ 0 < n := by
      intro n
      constructor
      · intro h; exact Nat.pos_of_mul_pos_left (Nat.lt_of_lt_of_le (by omega) h)
      · intro h; exact Nat.le_trans hk (Nat.le_mul_of_pos_right k h)
    refine ⟨xl, yl, xr, yr, n1, n2, n3, n4, ?_, ?_, ?_, ?_, hav, ?_⟩
    · intro c; rw [m1 c, suffix_repeated, q1]
    · intro c; rw [m2 c, before_repeated, q2]
    · intro c; rw [m3 c, prefix_repeated, q1]
    · intro c; rw [m4 c, after_repeated, q2]
    · rw [hbe]
      have f1 : xl.map (fun c => suffixCount p.maxRight (tokensOf (timesOver k sents)) (c :: w)) ++ yl.map (beforeCount p.maxLeft (timesOver k sents) w) =
          (xl.map (fun c => suffixCount p.maxRight (tokensOf sents) (c :: w)) ++ yl.map (beforeCount p.maxLeft sents w)).map (k * ·) := by
        rw [List.map_append, List.map_map, List.map_map]
        congr 1 <;> apply List.map_congr_left <;> intro c _
        · exact suffix_repeated _ _ _ _
        · exact before_repeated _ _ _ _ _
      have f2 : xr.map (fun c => prefixCount p.maxLeft (tokensOf (timesOver k sents)) (w ++ [c])) ++ yr.map (afterCount p.maxRight (timesOver k sents) w) =
          (xr.map (fun c => prefixCount p.maxLeft (tokensOf sents) (w ++ [c])) ++ yr.map (afterCount p.maxRight sents w)).map (k * ·) := by
        rw [List.map_append, List.map_map, List.map_map]
        congr 1 <;> apply List.map_congr_left <;> intro c _
        · exact prefix_repeated _ _ _ _
        · exact after_repeated _ _ _ _ _
      rw [f1, f2, shannon_mul (by omega), shannon_mul (by omega)]
  obtain ⟨s, e, g⟩ := one k hk
  obtain ⟨s', e', g'⟩ := one k' hk'
  refine ⟨s, s', e, e', fun w => ?_⟩
  obtain ⟨xl, yl, xr, yr, n1, n2, n3, n4, m1, m2, m3, m4, hav, hbe⟩ := g w
  obtain ⟨xl', yl', xr', yr', n1', n2', n3', n4', m1', m2', m3', m4', hav', hbe'⟩ := g' w
  have p1 : xl.Perm xl' := (List.perm_ext_iff_of_nodup n1 n1').2 (fun c => by rw [m1, m1'])
  have p2 : yl.Perm yl' := (List.perm_ext_iff_of_nodup n2 n2').2 (fun c => by rw [m2, m2'])
  have p3 : xr.Perm xr' := (List.perm_ext_iff_of_nodup n3 n3').2 (fun c => by rw [m3, m3'])
  have p4 : yr.Perm yr' := (List.perm_ext_iff_of_nodup n4 n4').2 (fun c => by rw [m4, m4'])
  constructor
  · rw [hav, hav', p1.length_eq, p2.length_eq, p3.length_eq, p4.length_eq]
  · rw [hbe, hbe', shannon_perm ((p1.map _).append (p2.map _)), shannon_perm ((p3.map _).append (p4.map _))]

private theorem rests_repeated (sents : List Str) (L R : Int) (l : Str) (k : Nat) :
    NewsNounSpec.rests (NewsNounSpec.corpusOf (timesOver k sents) L R) l =
      (List.replicate k (NewsNounSpec.rests (NewsNounSpec.corpusOf sents L R) l)).flatten := by
  unfold NewsNounSpec.rests timesOver
  induction k with
  | zero => simp
  | succ k ih =>
    rw [List.replicate_succ, List.flatten_cons, List.replicate_succ, List.flatten_cons, ← ih]
    show List.map _ (List.filter _ ((sents ++ (List.replicate k sents).flatten).flatMap splitWs)) = _
    rw [List.flatMap_append, List.filter_append, List.map_append]
    rfl

private theorem length_rep {α : Type} (xs : List α) (k : Nat) : (List.replicate k xs).flatten.length = k * xs.length := by
  induction k with
  | zero => simp
  | succ k ih => rw [List.replicate_succ, List.flatten_cons, List.length_append, ih, Nat.succ_mul, Nat.add_comm]

private theorem countP_rep {α : Type} (xs : List α) (P : α → Bool) (k : Nat) : (List.replicate k xs).flatten.countP P = k * xs.countP P := by
  induction k with
  | zero => simp
  | succ k ih => rw [List.replicate_succ, List.flatten_cons, List.countP_append, ih, Nat.succ_mul, Nat.add_comm]

private theorem filterMap_rep {α β : Type} (xs : List α) (f : α → Option β) (k : Nat) :
    (List.replicate k xs).flatten.filterMap f = (List.replicate k (xs.filterMap f)).flatten := by
  induction k with
  | zero => simp
  | succ k ih => rw [List.replicate_succ, List.flatten_cons, List.filterMap_append, ih, List.replicate_succ, List.flatten_cons]

private theorem sum_rep (xs : List Rat) (k : Nat) : (List.replicate k xs).flatten.sum = k * xs.sum := by
  induction k with
  | zero => simp
  | succ k ih => rw [List.replicate_succ, List.flatten_cons, List.sum_append, ih]; push_cast; ring

private theorem different_rep (xs : List Str) (P : Str → Bool) (k : Nat) (hk : 1 ≤ k) :
    (((List.replicate k xs).flatten.filter P).dedup).length = ((xs.filter P).dedup).length := by
  apply List.Perm.length_eq
  rw [List.perm_ext_iff_of_nodup (List.nodup_dedup _) (List.nodup_dedup _)]
  intro a
  rw [List.mem_dedup, List.mem_dedup, List.mem_filter, List.mem_filter, List.mem_flatten]
  constructor
  · rintro ⟨⟨l, hl, ha⟩, hp⟩
    rw [List.eq_of_mem_replicate hl] at ha
    exact ⟨ha, hp⟩
  · rintro ⟨ha, hp⟩
    exact ⟨⟨xs, List.mem_replicate.2 ⟨by omega, rfl⟩, ha⟩, hp⟩

/-- **C107** `NewsNounExtractor`: trained on the corpus `k` times over, `predict` reports `k` times the frequency and the same score and
    proportions for every left part. -/
theorem C107_news_noun (p : NewsNoun.Params) (s s1 sk : NewsNoun.State) (sents : List Str) (k : Nat) (hk : 1 ≤ k)
    (h1 : NewsNoun.train p s sents = .ok s1) (h : NewsNoun.train p s (timesOver k sents) = .ok sk) :
    ∃ t tk, s1.trained = some t ∧ sk.trained = some tk ∧ ∀ l,
      NewsNoun.predict sk.rScores tk l =
        { NewsNoun.predict s1.rScores t l with frequency := k * (NewsNoun.predict s1.rScores t l).frequency } := by
  obtain ⟨t, ht, g⟩ := C78_predict p s s1 sents h1
  obtain ⟨tk, htk, gk⟩ := C78_predict p s sk (timesOver k sents) h
  refine ⟨t, tk, ht, htk, fun l => ?_⟩
  have hk' : (k : Rat) ≠ 0 := by exact_mod_cast (show k ≠ 0 by omega)
  rw [g l, gk l]
  unfold NewsNounSpec.mean NewsNounSpec.share NewsNounSpec.seen NewsNounSpec.num NewsNounSpec.different NewsNounSpec.freq
  rw [rests_repeated]
  generalize NewsNounSpec.rests (NewsNounSpec.corpusOf sents p.maxLeft p.maxRight) l = xs
  rw [filterMap_rep, sum_rep, length_rep, length_rep, countP_rep, countP_rep, different_rep _ _ _ hk, different_rep _ _ _ hk]
  push_cast
  rw [mul_div_mul_left _ _ hk', mul_div_mul_left _ _ hk', mul_div_mul_left _ _ hk']

private theorem bigram_repeated (p : BG.Params) (sents : List Str) (k : Nat) (b : Str × Str) :
    bigramCount p (timesOver k sents) b = k * bigramCount p sents b := by
  unfold bigramCount timesOver
  induction k with
  | zero => simp
  | succ k ih => rw [List.replicate_succ, List.flatten_cons, List.map_append, List.sum_append, ih, Nat.succ_mul, Nat.add_comm]

/-- **C107** `Bigram`, nothing dropped: repeating the corpus keeps the listed pairs, multiplies the counts by `k` and adds exactly `2 log k` to the
    score `extract` with PMI gives (so a threshold has to move by that amount). -/
theorem C107_pmi (p : BG.Params) (sents : List Str) (k : Nat) (hk : 1 ≤ k) (hm : p.minFrequency ≤ 1) (hcp : p.checkpoint ≤ 0) (threshold : ℝ) :
    ∃ d dk, BG.extractByPmi (BG.train p sents).1 threshold = .ok d ∧
      BG.extractByPmi (BG.train p (timesOver k sents)).1 (threshold + 2 * Real.log k) = .ok dk ∧
      ∀ b n s, Dict.get? d b = some (n, s) ↔ Dict.get? dk b = some (k * n, s + 2 * Real.log k) := by
  obtain ⟨c, d, hn, hc, hd, g⟩ := C33_pmi p sents threshold
  obtain ⟨ck, dk, hnk, hck, hdk, gk⟩ := C33_pmi p (timesOver k sents) (threshold + 2 * Real.log k)
  refine ⟨d, dk, hd, hdk, fun b n s => ?_⟩
  have hcount : ∀ b, bigramCount p (timesOver k sents) b = k * bigramCount p sents b :=
    fun b => bigram_repeated p sents k b
  have hrun : ∀ b, bigramRun p (timesOver k sents) b = k * bigramRun p sents b := by
    intro b
    rw [bg_run_eq p _ (.inl hcp), bg_run_eq p _ (.inl hcp), hcount]
    by_cases h : 0 < bigramCount p sents b
    · have h' : 0 < k * bigramCount p sents b := Nat.mul_pos hk h
      rw [if_pos ⟨h', by omega⟩, if_pos ⟨h, by omega⟩]
    · have h' : ¬ 0 < k * bigramCount p sents b := fun x => h (Nat.pos_of_mul_pos_left x)
      rw [if_neg (fun x => h' x.1), if_neg (fun x => h x.1), Nat.mul_zero]
  have hget : ∀ b, Dict.get? ck b = (Dict.get? c b).map (k * ·) := by
    intro b
    rw [hck, hc, hrun]
    by_cases h : 0 < bigramRun p sents b
    · rw [if_pos h, if_pos (Nat.mul_pos hk h)]; rfl
    · rw [if_neg h, if_neg (fun x => h (Nat.pos_of_mul_pos_left x))]; rfl
  have hperm : ck.Perm (c.map (fun e => (e.1, k * e.2))) := by
    refine Dict.perm_of_get? hnk (by unfold Dict.WF Dict.keys; rw [List.map_map]; exact hn) (fun b => ?_)
    rw [hget]
    clear hget hrun hcount hn hc g
    induction c with
    | nil => rfl
    | cons e c ih =>
      rw [List.map_cons, Dict.get?_cons, Dict.get?_cons]
      by_cases h : e.1 = b
      · simp [h]
      · simp only [h, if_false]; exact ih
  have hsum : (ck.map (·.2)).sum = k * (c.map (·.2)).sum := by
    rw [(hperm.map _).sum_eq, List.map_map, ← sum_mul, List.map_map]; rfl
  have htypes : ∀ x, bigramTypes ck x = bigramTypes c x := by
    intro x
    unfold bigramTypes
    rw [hperm.countP_eq, hperm.countP_eq, List.countP_map, List.countP_map]; rfl
  have hk0 : (0 : ℝ) < k := by exact_mod_cast hk
  rw [g, gk, hget, hsum, htypes, htypes]
  have hmap : (Dict.get? c b).map (k * ·) = some (k * n) ↔ Dict.get? c b = some n := by
    cases Dict.get? c b with
    | none => simp
    | some m => simp; omega
  rw [hmap]
  refine and_congr_right (fun hb => ?_)
  have hmem : (b, n) ∈ c := (Dict.mem_iff_get? hn).2 hb
  have hn0 : 0 < n := by
    rw [hc] at hb
    by_cases h : 0 < bigramRun p sents b
    · rw [if_pos h] at hb; cases hb; exact h
    · rw [if_neg h] at hb; cases hb
  have hS : 0 < (c.map (·.2)).sum := Nat.lt_of_lt_of_le hn0 (List.single_le_sum (by simp) _ (List.mem_map_of_mem hmem))
  have ht1 : 0 < bigramTypes c b.1 := by
    unfold bigramTypes
    exact Nat.lt_of_lt_of_le (List.countP_pos_iff.2 ⟨(b, n), hmem, by simp⟩) (Nat.le_add_right _ _)
  have ht2 : 0 < bigramTypes c b.2 := by
    unfold bigramTypes
    exact Nat.lt_of_lt_of_le (List.countP_pos_iff.2 ⟨(b, n), hmem, by simp⟩) (Nat.le_add_left _ _)
  generalize (c.map (·.2)).sum = S at hS
  generalize bigramTypes c b.1 = x at ht1
  generalize bigramTypes c b.2 = y at ht2
  have hS' : (0 : ℝ) < S := by exact_mod_cast hS
  have hn' : (0 : ℝ) < n := by exact_mod_cast hn0
  have hx' : (0 : ℝ) < x := by exact_mod_cast ht1
  have hy' : (0 : ℝ) < y := by exact_mod_cast ht2
  have hlog : Real.log (((2 * (k * S) : Nat) : ℝ) * ((k * n : Nat) : ℝ) / ((x * y : Nat) : ℝ)) =
      Real.log (((2 * S : Nat) : ℝ) * n / ((x * y : Nat) : ℝ)) + 2 * Real.log k := by
    have e : ((2 * (k * S) : Nat) : ℝ) * ((k * n : Nat) : ℝ) / ((x * y : Nat) : ℝ) = (((2 * S : Nat) : ℝ) * n / ((x * y : Nat) : ℝ)) * ((k : ℝ) ^ 2) := by
      push_cast; field_simp
    rw [e, Real.log_mul (by positivity) (by positivity), Real.log_pow]
    push_cast; ring
  rw [hlog]
  constructor
  · rintro ⟨rfl, h⟩; exact ⟨rfl, by linarith⟩
  · rintro ⟨h1, h⟩; exact ⟨by linarith, by linarith⟩

/-! ### concrete cases -/

private def one : WX.Params := { minFrequency := 1 }
private def varietyOf (k : Nat) (sents : List Str) (w : Str) : Nat × Nat :=
  match WX.train one {} (timesOver k sents) 0 false with | .ok s => WX.accessorVariety s w | .error _ => (0, 0)

/-- read once, the neighbour across the word boundary is not counted; read twice or three times, it is -/
example : varietyOf 1 ["나가 다라".toList] "가".toList = (0, 0) ∧ varietyOf 2 ["나가 다라".toList] "가".toList = (0, 1) ∧
    varietyOf 3 ["나가 다라".toList] "가".toList = (0, 1) := by decide +kernel

example : timesOver 2 ["가".toList, "나".toList] = ["가".toList, "나".toList, "가".toList, "나".toList] := by decide +kernel

private def pairsOf (k : Nat) : Dict (Str × Str) (Nat × Nat) :=
  match BG.extractByFrequency (BG.train { minFrequency := 1, checkpoint := 0 } (timesOver k ["a b a".toList])).1 (-1) 0 with | .ok d => d | .error _ => []

example : pairsOf 1 = [(("a".toList, "b".toList), (1, 1)), (("b".toList, "a".toList), (1, 1))] ∧
    pairsOf 3 = [(("a".toList, "b".toList), (3, 3)), (("b".toList, "a".toList), (3, 3))] := by decide +kernel

end Props
