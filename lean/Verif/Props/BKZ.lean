import Verif.Proofs.BKZ

/-!
# Block reduction: tours, main loop, auto-abort (C23, C24, C25)

Everything here holds for arbitrary basic procedures (enumeration, LLL, size reduction), clocks and slopes.
-/

namespace Fplll
namespace BKZ

variable {σ : Type}

/-! ## C25: auto-abort -/

section abort
variable {D : Type} [LinearOrder D] [OrderTop D]

/-- **C25.** `test_abort` returns true at test `k` exactly when at least `maxNoDec` consecutive tests up to and including this
one saw a slope that is not below `scale` times the best slope of the tests before it.  `sl i` is the slope of test `i`. -/
theorem C25_test_abort (scaled : D → D) (maxNoDec : ℤ) (sl : ℕ → D) (k : ℕ) :
    ((runTests scaled maxNoDec sl k).test scaled maxNoDec (sl k)).1 = true ↔
      ∃ m : ℕ, maxNoDec ≤ m ∧ m ≤ k ∧
        ∀ j, k < j + m → j ≤ k → 1 ≤ j ∧ scaled ((Finset.range j).inf sl) ≤ sl j :=
  fires_iff scaled maxNoDec sl k

/-- the first test does not abort (for the documented `maxNoDec ≥ 1`) -/
theorem C25_first (scaled : D → D) (maxNoDec : ℤ) (h : 1 ≤ maxNoDec) (sl : ℕ → D) :
    ((runTests scaled maxNoDec sl 0).test scaled maxNoDec (sl 0)).1 = false := by
  rw [← Bool.not_eq_true, C25_test_abort]
  rintro ⟨m, h1, h2, -⟩
  omega

/-- a new best slope (below `scale` times the old best) postpones the abort by `maxNoDec` tests -/
theorem C25_decrease (scaled : D → D) (maxNoDec : ℤ) (sl : ℕ → D) (j k : ℕ) (hjk : j ≤ k) (hk : (k : ℤ) < j + maxNoDec)
    (hdec : sl j < scaled ((Finset.range j).inf sl)) :
    ((runTests scaled maxNoDec sl k).test scaled maxNoDec (sl k)).1 = false := by
  rw [← Bool.not_eq_true, C25_test_abort]
  rintro ⟨m, h1, h2, h3⟩
  exact absurd (h3 j (by omega) hjk).2 (not_le.2 hdec)

/-- slopes 5, 3, 3, 3 with scale 1 and `maxNoDec = 2`: only the fourth test aborts -/
example : (List.range 4).map (fun k => ((runTests (D := WithTop ℕ) id 2
    (fun i => if i = 0 then 5 else 3) k).test id 2 (if k = 0 then 5 else 3)).1) =
    [false, false, false, true] := by decide

end abort

/-! ## C23: the blocks of a tour -/

theorem logged_svp (o : Ops σ) (kappa bs : ℤ) (dual : Bool) (s : σ × List Call) :
    Emits s.2 [.svp kappa bs dual] ((logged o).svp kappa bs dual s) := emits_withLog

theorem truncTour_emits (o : Ops σ) (bs lo hi : ℤ) (s : σ × List Call) :
    Emits s.2 ((List.range (hi - bs - lo).toNat).map fun j : ℕ => .svp (lo + j) bs false) (truncTour (logged o) bs lo hi s) := by
  refine (loop_emits (g := fun j : ℕ => [.svp (lo + j) bs false]) _ _ (fun j hj s => ?_) _ _).congr (List.flatMap_pure_eq_map _ _)
  rw [one_mul]; exact logged_svp _ _ _ _ _

theorem truncDtour_emits (o : Ops σ) (bs lo hi : ℤ) (s : σ × List Call) :
    Emits s.2 ((List.range (hi - bs - lo).toNat).map fun j : ℕ => .svp (hi - bs - j) bs true) (truncDtour (logged o) bs lo hi s) := by
  refine (loop_emits (g := fun j : ℕ => [.svp (hi - bs - j) bs true]) _ _ (fun j hj s => ?_) _ _).congr (List.flatMap_pure_eq_map _ _)
  rw [neg_one_mul, ← sub_eq_add_neg]; exact logged_svp _ _ _ _ _

theorem hkz_emits (o : Ops σ) (lo hi : ℤ) (s : σ × List Call) :
    Emits s.2 (((List.range (hi - 1 - lo).toNat).map fun j : ℕ => .svp (lo + j) (hi - (lo + j)) false) ++
      [.sizeRed (hi - 1) hi (hi - 2)]) (hkz (logged o) lo hi s) := by
  have h1 : Emits s.2 ((List.range (hi - 1 - lo).toNat).map fun j : ℕ => .svp (lo + j) (hi - (lo + j)) false)
      (loop (fun kappa => (logged o).svp kappa (hi - kappa) false) 1 (hi - 1 - lo).toNat lo true s) := by
    refine (loop_emits (g := fun j : ℕ => [.svp (lo + j) (hi - (lo + j)) false]) _ _ (fun j hj s => ?_) _ _).congr
      (List.flatMap_pure_eq_map _ _)
    rw [one_mul]; exact logged_svp _ _ _ _ _
  refine h1.bind fun a s' hs' => ?_
  rw [← hs']
  refine Emits.congr (Emits.bind (l1 := [.sizeRed (hi - 1) hi (hi - 2)]) (l2 := []) ?_ fun _ _ h => Emits.ok h) (List.append_nil _)
  exact emits_withLog

theorem tour_emits (o : Ops σ) (bs lo hi : ℤ) (s : σ × List Call) :
    Emits s.2 (((List.range (hi - bs - lo).toNat).map fun j : ℕ => .svp (lo + j) bs false) ++
      (((List.range (hi - 1 - max (hi - bs) 0).toNat).map fun j : ℕ =>
        .svp (max (hi - bs) 0 + j) (hi - (max (hi - bs) 0 + j)) false) ++ [.sizeRed (hi - 1) hi (hi - 2)]))
      (tour (logged o) bs lo hi s) := by
  refine Emits.bind (truncTour_emits o bs lo hi s) fun c1 s' hs' => ?_
  rw [← hs']
  refine Emits.congr (Emits.bind (l2 := []) (hkz_emits o (max (hi - bs) 0) hi s') fun c2 s hs => ?_) (List.append_nil _)
  exact Emits.ok hs

/-- the calls of one BKZ tour over the rows `lo, …, hi-1`: every block `[κ, min(κ+β, hi))` once, in increasing order of `κ`, and the
size reduction of the last row -/
def tourCalls (bs lo hi : ℕ) : List Call :=
  ((List.range (hi - lo - 1)).map fun k => .svp ((lo + k : ℕ) : ℤ) ((min bs (hi - (lo + k)) : ℕ) : ℤ) false) ++
    [.sizeRed (hi - 1) hi (hi - 2)]

/-- **C23, tours of a block.** A tour with a block size of at most the number of rows calls the SVP procedure on each block
`[κ, min(κ+β, hi))`, `κ = lo, …, hi-2`, once and in this order; if the tour ends with an exception, on an initial part of
them.  (`Emits l₀ l m`: the calls `l` are appended to the log `l₀`, or a prefix of them if `m` does not return normally.) -/
theorem C23_tour_block (o : Ops σ) (bs lo hi : ℕ) (hbs : 1 ≤ bs) (hle : bs ≤ hi - lo) (s : σ) :
    Emits [] (tourCalls bs lo hi) (tour (logged o) bs lo hi (s, [])) := by
  refine (tour_emits o bs lo hi (s, [])).congr ?_
  rw [tourCalls, ← List.append_assoc]
  congr 1
  have e0 : max ((hi : ℤ) - bs) 0 = hi - bs := by omega
  have e1 : ((hi : ℤ) - bs - lo).toNat = hi - bs - lo := by omega
  have e2 : ((hi : ℤ) - 1 - max ((hi : ℤ) - bs) 0).toNat = bs - 1 := by omega
  have e3 : hi - lo - 1 = (hi - bs - lo) + (bs - 1) := by omega
  rw [e0] at *
  rw [e1, e2, e3, List.range_add, List.map_append, List.map_map]
  congr 1
  · refine List.map_congr_left fun k hk => ?_
    rw [List.mem_range] at hk
    rw [show min bs (hi - (lo + k)) = bs by omega]
    push_cast; rfl
  · refine List.map_congr_left fun k hk => ?_
    rw [List.mem_range] at hk
    rw [Function.comp, show min bs (hi - (lo + (hi - bs - lo + k))) = hi - (hi - bs + k) by omega]
    have e4 : ((lo + (hi - bs - lo + k) : ℕ) : ℤ) = hi - bs + k := by omega
    have e5 : ((hi - (hi - bs + k) : ℕ) : ℤ) = hi - (hi - bs + k) := by omega
    rw [e4, e5]

/-- **C23, BKZ.** One tour of BKZ over a basis of `n ≥ 1` rows calls the SVP procedure on exactly the blocks
`[κ, min(κ+β, n))`, `κ = 0, …, n-2`, once each in increasing order (an initial part of them if the tour throws), for every
block size, also one larger than `n`. -/
theorem C23_tour (o : Ops σ) (bs n : ℕ) (hbs : 1 ≤ bs) (s : σ) :
    Emits [] (tourCalls bs 0 n) (tour (logged o) bs 0 n (s, [])) := by
  rcases Nat.le_total bs n with h | h
  · exact C23_tour_block o bs 0 n hbs h s
  refine (tour_emits o bs 0 n (s, [])).congr ?_
  rw [tourCalls, ← List.append_assoc]
  congr 1
  have e0 : max ((n : ℤ) - bs) 0 = 0 := by omega
  have e1 : ((n : ℤ) - bs - 0).toNat = 0 := by omega
  have e2 : ((n : ℤ) - 1 - 0).toNat = n - 0 - 1 := by omega
  rw [e0, e1, e2, List.range_zero, List.map_nil, List.nil_append]
  refine List.map_congr_left fun k hk => ?_
  rw [List.mem_range] at hk
  rw [show min bs (n - (0 + k)) = n - k by omega]
  have e4 : ((n - k : ℕ) : ℤ) = n - k := by omega
  rw [e4, zero_add, zero_add]

/-- **C23, SD-BKZ.** Dual blocks from the right to the left, then primal blocks from the left to the right, all of full size. -/
theorem C23_sd_tour (o : Ops σ) (bs n : ℕ) (s : σ) :
    Emits [] (((List.range (n - bs)).map fun j : ℕ => .svp ((n - bs : ℕ) - j : ℤ) bs true) ++
      ((List.range (n - bs)).map fun j : ℕ => .svp (j : ℤ) bs false)) (sdTour (logged o) bs 0 n (s, [])) := by
  have h := Emits.bind (truncDtour_emits o bs 0 n (s, [])) (f := fun c1 s => (truncTour (logged o) bs 0 n s).bind fun c2 s =>
    .ok (c1 && c2) s) (l2 := (List.range ((n : ℤ) - bs - 0).toNat).map fun j : ℕ => .svp (0 + j) bs false) fun c1 s' hs' => by
      rw [← hs']
      refine Emits.congr (Emits.bind (l2 := []) (truncTour_emits o bs 0 n s') fun c2 s hs => ?_) (List.append_nil _)
      exact Emits.ok hs
  refine Emits.congr h ?_
  have e1 : ((n : ℤ) - bs - 0).toNat = n - bs := by omega
  rw [e1]
  congr 1
  · refine List.map_congr_left fun k hk => ?_
    rw [List.mem_range] at hk
    rw [show ((n - bs : ℕ) : ℤ) = n - bs by omega]
  · refine List.map_congr_left fun k hk => by rw [zero_add]

/-- `κ ↦ [κ, κ+β)` lies in a basis of `n` rows -/
def Call.InRange (n : ℤ) : Call → Prop
  | .svp kappa bs _ => 0 ≤ kappa ∧ 1 ≤ bs ∧ kappa + bs ≤ n
  | .lll lo st hi => 0 ≤ lo ∧ lo ≤ st ∧ st < hi ∧ hi ≤ n
  | .sizeRed lo hi st => 0 ≤ lo ∧ lo < hi ∧ hi ≤ n ∧ st < lo

/-- all recorded calls are in range -/
def LogOk (n : ℤ) (s : σ × List Call) : Prop := ∀ c ∈ s.2, c.InRange n

theorem withLog_all {n : ℤ} {l : List Call} {c : Call} {α : Type} (hl : ∀ c ∈ l, c.InRange n) (hc : c.InRange n) (m : Out σ α) :
    (m.withLog (l ++ [c])).All (LogOk n) (LogOk n) := by
  have h : ∀ s : σ, LogOk n (s, l ++ [c]) := by
    intro s x hx
    rcases List.mem_append.1 hx with hx | hx
    · exact hl x hx
    · rw [List.mem_singleton.1 hx]; exact hc
  cases m with
  | ok a s => exact h s
  | thrown s => exact h s
  | ub s => exact h s
  | stuck s => exact h s

theorem logged_inv (o : Ops σ) (n : ℤ) (hn : 1 ≤ n) : OpsInv n (logged o) (LogOk n) (LogOk n) where
  svp kappa bs dual s h1 h2 h3 hs := withLog_all (c := .svp kappa bs dual) hs ⟨h1, h2, h3⟩ _
  lll s hs := withLog_all (c := .lll 0 0 n) hs ⟨le_rfl, le_rfl, hn, le_rfl⟩ _
  sizeRed k s h1 h2 hs := withLog_all (c := .sizeRed (k - 1) k (k - 2)) hs ⟨by omega, by omega, h2, by omega⟩ _
  symG s hs := hs
  noProgress s hs := hs

/-- **C23, whole runs.** BKZ, SD-BKZ (with a block size of at most the number of rows) and slide reduction, with their pre- and
post-processing, never address a row outside the basis, for every number `n ≥ 1` of rows, every block size and all outcomes. -/
theorem C23_in_range {D : Type} [LinearOrder D] [OrderTop D] (o : Ops σ) (c : Cfg D) (e : Env D (σ × List Call)) (n : ℤ)
    (hn : 1 ≤ n) (hsd : c.sd = true → c.blockSize ≤ n) (he : ∀ i s, (e.slope i s).2.2 = s.2)
    (prep : σ × List Call → σ × List Call) (hprep : ∀ s, (prep s).2 = s.2) (inner fuel : ℕ) (s : σ) :
    (bkz (logged o) c e prep n inner fuel (s, [])).All (LogOk n) (LogOk n) :=
  bkz_all (logged_inv o n hn) hn hsd (fun i s hs => by unfold LogOk; rw [he]; exact hs)
    (fun s hs => by unfold LogOk; rw [hprep]; exact hs) inner fuel (fun _ h => absurd h List.not_mem_nil)

/-- **C23, slide reduction.** One pass over the primal blocks: the blocks `[iβ, min((i+1)β, n))`, from left to right; they cover
the basis without overlap since `(p-1)β < n ≤ pβ`. -/
theorem C23_slide_blocks (o : Ops σ) (bs n : ℕ) (hbs : 1 ≤ bs) (s : σ × List Call) :
    (∃ p : ℕ, numBlocks bs 0 n = p ∧ ((p : ℤ) - 1) * bs < n ∧ n ≤ p * bs ∧
      Emits s.2 ((List.range p).map fun i : ℕ => .svp (i * bs : ℤ) (min ((n : ℤ) - i * bs) bs) false)
        (loop (fun i => (logged o).svp (0 + i * (bs : ℤ)) (min ((n : ℤ) - (0 + i * bs)) bs) false) 1
          (numBlocks bs 0 n).toNat 0 true s)) := by
  obtain ⟨h1, h2, h3⟩ := numBlocks_spec (n := (n : ℤ)) (bs := bs) (by omega) (by omega)
  refine ⟨(numBlocks bs 0 n).toNat, by omega, ?_, ?_, ?_⟩
  · rw [Int.toNat_of_nonneg h3]; exact h1
  · have : (((numBlocks bs 0 n).toNat * bs : ℕ) : ℤ) = numBlocks bs 0 n * bs := by push_cast; rw [Int.toNat_of_nonneg h3]
    omega
  · refine (loop_emits (g := fun i : ℕ => [.svp (i * bs : ℤ) (min ((n : ℤ) - i * bs) bs) false]) _ _ (fun j hj s => ?_) _ _).congr
      (List.flatMap_pure_eq_map _ _)
    rw [one_mul, zero_add, zero_add]; exact logged_svp _ _ _ _ _

/-- procedures that do nothing and report `clean` -/
def idle (clean : Bool) : Ops Unit where
  svp _ _ _ s := .ok clean s
  lll _ _ _ s := .ok (true, false) s
  sizeRed _ _ _ s := .ok true s
  symG s := s
  noProgress s := (true, s)

/-- the log of an outcome -/
def logOf {α : Type} (m : Out (σ × List Call) α) : List Call := m.state.2

/-- a tour with block size 3 over 5 rows -/
example : logOf (tour (logged (idle true)) 3 0 5 ((), [])) =
    [.svp 0 3 false, .svp 1 3 false, .svp 2 3 false, .svp 3 2 false, .sizeRed 4 5 3] := by decide

/-- an SD-BKZ tour with block size 3 over 5 rows -/
example : logOf (sdTour (logged (idle true)) 3 0 5 ((), [])) =
    [.svp 2 3 true, .svp 1 3 true, .svp 0 3 false, .svp 1 3 false] := by decide

/-- a slide tour with block size 2 over 5 rows: blocks of sizes 2, 2, 1, then two dual blocks -/
example : logOf (slideTour (logged (idle true)) true 2 0 5 3 ((), [])) =
    [.svp 0 2 false, .svp 2 2 false, .svp 4 1 false, .lll 0 0 5, .svp 1 2 true, .svp 3 2 true] := by decide

/-- **C23, limit of the claim for preprocessing.** When a preprocessing block size is larger than the block, the tour for the block
`[2, 5)` also reduces blocks that start below row 2. -/
theorem C23_preprocessing_below : logOf (tour (logged (idle true)) 4 2 5 ((), [])) =
    [.svp 1 4 false, .svp 2 3 false, .svp 3 2 false, .sizeRed 4 5 3] := by decide

/-- configuration for the examples -/
def exCfg (bs : ℤ) (sd : Bool) : Cfg (WithTop ℕ) := ⟨bs, sd, false, some 2, false, false, false, id, 5⟩

/-- no clock, constant slope -/
def exEnv (σ : Type) : Env (WithTop ℕ) σ := ⟨fun _ _ => false, fun _ s => (⊤, s)⟩

/-- **C23 violated** for SD-BKZ with a block size larger than the number of rows: the final `hkz(num_rows - block_size, num_rows)`
starts at row `-2`. -/
theorem C23_sd_violated : Call.svp (-2) 5 false ∈ logOf (bkz (logged (idle true)) (exCfg 5 true) (exEnv _) id 3 1 5 ((), [])) := by
  decide

/-- **C23 violated** for an empty basis (all rows were zero): size reduction of row `-1`. -/
theorem C23_empty_violated :
    Call.sizeRed (-1) 0 (-2) ∈ logOf (bkz (logged (idle true)) (exCfg 2 false) (exEnv _) id 0 1 5 ((), [])) := by decide

/-! ## C24: the main loop -/

section main
variable {D : Type} [LinearOrder D] [OrderTop D]

/-- outcome of the part of `bkz()` before the loop -/
def startOf (o : Ops σ) (c : Cfg D) (prep : σ → σ) (n : ℤ) (s : σ) : Out σ Unit :=
  if c.sd = true then (o.lll 0 0 n (prep s)).bind fun _ s => .ok () s else .ok () (prep s)

/-- **C24, complete account of the loop.** Started in `s0`, the loop runs tours `0, …, k-1`, none of which was clean, and iteration
`k` ends it in the way described by `Ends`: the tour limit is tested first, then the clock, then auto-abort, then a
tour is run. The only other possibility is that the model's fuel does not suffice: then all `fuel` iterations ran unclean tours. -/
theorem C24_loop (o : Ops σ) (c : Cfg D) (e : Env D σ) (n : ℤ) (inner fuel : ℕ) (s0 : σ) :
    (∃ k < fuel, Ran o c e n inner s0 k ∧ Ends o c e n inner s0 k (mainLoop o c e n inner fuel 0 AutoAbort.init s0)) ∨
    (Ran o c e n inner s0 fuel ∧
      mainLoop o c e n inner fuel 0 AutoAbort.init s0 = .stuck (headState o c e n inner s0 fuel)) := by
  have := mainLoop_run o c e n inner s0 fuel 0 AutoAbort.init (fun _ => rfl) (fun i hi => absurd hi (Nat.not_lt_zero i))
  rw [Nat.zero_add] at this
  rcases this with ⟨k, -, hk, h⟩ | h
  · exact Or.inl ⟨k, hk, h⟩
  · exact Or.inr h

/-- a normal result of `bkz()` comes from a normal end of its loop -/
theorem bkz_ok (o : Ops σ) (c : Cfg D) (e : Env D σ) (prep : σ → σ) (n : ℤ) (inner fuel : ℕ) (s s' : σ) (st : Status) (k : ℕ)
    (hbs : 2 ≤ c.blockSize) (h : bkz o c e prep n inner fuel s = .ok (st, k) s') :
    ∃ s0 s1, startOf o c prep n s = .ok () s0 ∧ mainLoop o c e n inner fuel 0 AutoAbort.init s0 = .ok (st, k) s1 := by
  unfold bkz at h
  by_cases h1 : c.sd = true ∧ c.sld = true
  · rw [if_pos h1] at h; cases h
  rw [if_neg h1, if_neg (by omega)] at h
  change (startOf o c prep n s).bind _ = _ at h
  cases hs : startOf o c prep n s with
  | thrown x => rw [hs] at h; cases h
  | ub x => rw [hs] at h; cases h
  | stuck x => rw [hs] at h; cases h
  | ok u s0 =>
    rw [hs] at h
    refine ⟨s0, ?_⟩
    change (mainLoop o c e n inner fuel 0 AutoAbort.init s0).bind _ = _ at h
    cases hm : mainLoop o c e n inner fuel 0 AutoAbort.init s0 with
    | thrown x => rw [hm] at h; cases h
    | ub x => rw [hm] at h; cases h
    | stuck x => rw [hm] at h; cases h
    | ok r s1 =>
      rw [hm] at h
      refine ⟨s1, rfl, ?_⟩
      rw [Out.bind] at h
      generalize (if c.sd = true then hkz o (n - c.blockSize) n s1 else Out.ok true s1) = w at h
      cases w with
      | thrown x => cases h
      | ub x => cases h
      | stuck x => cases h
      | ok u s2 =>
        rw [Out.bind] at h
        generalize (if c.sld = true then sldFinish o c.blockSize n s2 else Out.ok true s2) = w at h
        cases w with
        | thrown x => cases h
        | ub x => cases h
        | stuck x => cases h
        | ok u s3 =>
          rw [Out.bind] at h
          cases h
          rfl

/-- a normal result of `bkz()` in terms of the account of the loop -/
theorem bkz_ends (o : Ops σ) (c : Cfg D) (e : Env D σ) (prep : σ → σ) (n : ℤ) (inner fuel : ℕ) (s s' : σ) (st : Status) (k : ℕ)
    (hbs : 2 ≤ c.blockSize) (h : bkz o c e prep n inner fuel s = .ok (st, k) s') :
    ∃ s0, startOf o c prep n s = .ok () s0 ∧ ∃ j s1, Ran o c e n inner s0 j ∧ Ends o c e n inner s0 j (.ok (st, k) s1) := by
  obtain ⟨s0, s1, h0, hm⟩ := bkz_ok o c e prep n inner fuel s s' st k hbs h
  refine ⟨s0, h0, ?_⟩
  rcases C24_loop o c e n inner fuel s0 with ⟨j, -, hr, he⟩ | ⟨-, he⟩
  · exact ⟨j, s1, hr, hm ▸ he⟩
  · rw [hm] at he; cases he

/-- **C24, tour limit.** With `BKZ_MAX_LOOPS` at most `max_loops` tours are run. -/
theorem C24_max_loops (o : Ops σ) (c : Cfg D) (e : Env D σ) (prep : σ → σ) (n : ℤ) (inner fuel : ℕ) (s s' : σ) (st : Status) (k : ℕ)
    (m : ℤ) (hm : c.maxLoops = some m) (h : bkz o c e prep n inner fuel s = .ok (st, k) s') : (k : ℤ) ≤ max m 0 := by
  by_cases hbs : 2 ≤ c.blockSize
  · obtain ⟨s0, -, j, s1, hr, he⟩ := bkz_ends o c e prep n inner fuel s s' st k hbs h
    have hj : (j : ℤ) ≤ max m 0 := by
      rcases Nat.eq_zero_or_pos j with h0 | h0
      · subst h0; exact le_max_right _ _
      · have := (hr (j - 1) (by omega)).1.1
        by_contra hlt
        exact this ⟨m, hm, by omega⟩
    cases he with
    | loops _ => exact hj
    | time _ _ => exact hj
    | abort _ _ _ => exact hj
    | done hent _ _ _ _ =>
      have : ¬ m ≤ (j : ℤ) := fun hle => hent.1 ⟨m, hm, hle⟩
      push_cast; omega
  · unfold bkz at h
    by_cases h1 : c.sd = true ∧ c.sld = true
    · rw [if_pos h1] at h; cases h
    rw [if_neg h1, if_pos (by omega)] at h
    cases h
    exact le_max_right _ _

/-- no run ends after a tour that would have let it go on -/
theorem ends_ran {o : Ops σ} {c : Cfg D} {e : Env D σ} {n : ℤ} {inner : ℕ} {s0 : σ} {j : ℕ} {clean : Bool} {s : σ}
    (ht : tourAt o c e n inner s0 j = .ok clean s) (hc : clean = true ∨ n ≤ c.blockSize) : ¬ Ran o c e n inner s0 (j + 1) := by
  intro h
  obtain ⟨-, h1, s', h2⟩ := h j (Nat.lt_succ_self j)
  rw [ht] at h2
  cases h2
  rcases hc with hc | hc
  · cases hc
  · omega

/-- **C24, `RED_BKZ_LOOPS_LIMIT`** is reported exactly when the run was ended by the limit: all `k` tours were unclean and
`k` has reached `max_loops`. -/
theorem C24_loops_limit (o : Ops σ) (c : Cfg D) (e : Env D σ) (prep : σ → σ) (n : ℤ) (inner fuel : ℕ) (s s' : σ) (st : Status) (k : ℕ)
    (hbs : 2 ≤ c.blockSize) (h : bkz o c e prep n inner fuel s = .ok (st, k) s') :
    ∃ s0, startOf o c prep n s = .ok () s0 ∧
      (st = .loopsLimit ↔ Ran o c e n inner s0 k ∧ ∃ m, c.maxLoops = some m ∧ m ≤ (k : ℤ)) := by
  obtain ⟨s0, h0, j, s1, hr, he⟩ := bkz_ends o c e prep n inner fuel s s' st k hbs h
  refine ⟨s0, h0, ?_⟩
  cases he with
  | loops hl => exact ⟨fun _ => ⟨hr, hl⟩, fun _ => rfl⟩
  | time hl _ => exact ⟨nofun, fun h => absurd h.2 hl⟩
  | abort hl _ _ => exact ⟨nofun, fun h => absurd h.2 hl⟩
  | done _ clean s ht hc => exact ⟨nofun, fun h => absurd h.1 (ends_ran ht hc)⟩

/-- **C24, `RED_BKZ_TIME_LIMIT`** is reported exactly when the time limit ended the run. -/
theorem C24_time_limit (o : Ops σ) (c : Cfg D) (e : Env D σ) (prep : σ → σ) (n : ℤ) (inner fuel : ℕ) (s s' : σ) (st : Status) (k : ℕ)
    (hbs : 2 ≤ c.blockSize) (h : bkz o c e prep n inner fuel s = .ok (st, k) s') :
    ∃ s0, startOf o c prep n s = .ok () s0 ∧
      (st = .timeLimit ↔ Ran o c e n inner s0 k ∧ ¬ LimitAt c k ∧ c.maxTime = true ∧
        e.timeUp k (headState o c e n inner s0 k) = true) := by
  obtain ⟨s0, h0, j, s1, hr, he⟩ := bkz_ends o c e prep n inner fuel s s' st k hbs h
  refine ⟨s0, h0, ?_⟩
  cases he with
  | loops hl => exact ⟨nofun, fun h => absurd hl h.2.1⟩
  | time hl ht => exact ⟨fun _ => ⟨hr, hl, ht⟩, fun _ => rfl⟩
  | abort _ ht _ => exact ⟨nofun, fun h => absurd h.2.2 ht⟩
  | done _ clean s ht hc => exact ⟨nofun, fun h => absurd h.1 (ends_ran ht hc)⟩

/-- **C24, success.** Success is reported only when the last tour was clean, auto-abort fired (in the sense of C25), or the block
covers the basis (then exactly one tour was run). -/
theorem C24_success (o : Ops σ) (c : Cfg D) (e : Env D σ) (prep : σ → σ) (n : ℤ) (inner fuel : ℕ) (s s' : σ) (k : ℕ)
    (hbs : 2 ≤ c.blockSize) (h : bkz o c e prep n inner fuel s = .ok (.success, k) s') :
    ∃ s0, startOf o c prep n s = .ok () s0 ∧
      ((∃ j s1, k = j + 1 ∧ tourAt o c e n inner s0 j = .ok true s1) ∨
       (autoOn c = true ∧ Fires c.scaled c.maxNoDec (slopeAt o c e n inner s0) k) ∨
       (n ≤ c.blockSize ∧ k = 1)) := by
  obtain ⟨s0, h0, j, s1, hr, he⟩ := bkz_ends o c e prep n inner fuel s s' .success k hbs h
  refine ⟨s0, h0, ?_⟩
  cases he with
  | abort _ _ ha => exact Or.inr (Or.inl ha)
  | done _ clean s ht hc =>
    rcases hc with rfl | hc
    · exact Or.inl ⟨j, _, rfl, ht⟩
    · refine Or.inr (Or.inr ⟨hc, ?_⟩)
      rcases Nat.eq_zero_or_pos j with h0 | h0
      · rw [h0]
      · have := (hr 0 h0).2.1
        omega

/-- **C24, the loop stops.** With `BKZ_MAX_LOOPS`, enough fuel for `max_loops` tours is enough: the loop is then only stuck when one
of the tours is. -/
theorem C24_loop_stops (o : Ops σ) (c : Cfg D) (e : Env D σ) (n : ℤ) (inner fuel : ℕ) (s0 : σ) (m : ℤ) (hm : c.maxLoops = some m)
    (hfuel : max m 0 < fuel) (htour : ∀ k s, tourAt o c e n inner s0 k ≠ .stuck s) (s' : σ) :
    mainLoop o c e n inner fuel 0 AutoAbort.init s0 ≠ .stuck s' := by
  intro hs
  rcases C24_loop o c e n inner fuel s0 with ⟨k, -, -, he⟩ | ⟨hr, -⟩
  · rw [hs] at he
    cases he with
    | stuck _ _ ht => exact htour _ _ ht
  · exact (hr (fuel - 1) (by omega)).1.1 ⟨m, hm, by omega⟩

/-- **C24, exceptions.** An exception of a tour leaves `bkz()` as it is: no status is set.  (The `catch` clauses are for `RedStatus`,
which nothing throws; `svp_reduction` and `svp_preprocessing` throw `std::runtime_error`.) -/
theorem C24_error_escapes (o : Ops σ) (c : Cfg D) (e : Env D σ) (prep : σ → σ) (n : ℤ) (inner fuel : ℕ) (s s0 s1 : σ) (k : ℕ)
    (hbs : 2 ≤ c.blockSize) (hexcl : ¬ (c.sd = true ∧ c.sld = true)) (h0 : startOf o c prep n s = .ok () s0)
    (hr : Ran o c e n inner s0 k) (hent : Enters o c e n inner s0 k) (hk : k < fuel)
    (ht : tourAt o c e n inner s0 k = .thrown s1) : bkz o c e prep n inner fuel s = .thrown s1 := by
  have hm : mainLoop o c e n inner fuel 0 AutoAbort.init s0 = .thrown s1 := by
    rcases C24_loop o c e n inner fuel s0 with ⟨j, hj, hrj, he⟩ | ⟨hr', -⟩
    · have hjk : j = k := by
        rcases Nat.lt_trichotomy j k with h | h | h
        · obtain ⟨henj, hbn, s2, hs2⟩ := hr j h
          exfalso
          revert he
          generalize mainLoop o c e n inner fuel 0 AutoAbort.init s0 = w
          intro he
          cases he with
          | loops h => exact henj.1 h
          | time _ h => exact henj.2.1 h
          | abort _ _ h => exact henj.2.2 h
          | done _ clean s ht hc => exact ends_ran ht hc fun i hi => hr i (by omega)
          | thrown _ _ ht => rw [hs2] at ht; cases ht
          | ub _ _ ht => rw [hs2] at ht; cases ht
          | stuck _ _ ht => rw [hs2] at ht; cases ht
        · exact h
        · obtain ⟨-, -, s2, hs2⟩ := hrj k h
          rw [ht] at hs2; cases hs2
      subst hjk
      revert he
      generalize mainLoop o c e n inner fuel 0 AutoAbort.init s0 = w
      intro he
      cases he with
      | loops h => exact absurd h hent.1
      | time _ h => exact absurd h hent.2.1
      | abort _ _ h => exact absurd h hent.2.2
      | done _ clean s ht' hc => rw [ht] at ht'; cases ht'
      | thrown _ _ ht' => rw [ht] at ht'; cases ht'; rfl
      | ub _ _ ht' => rw [ht] at ht'; cases ht'
      | stuck _ _ ht' => rw [ht] at ht'; cases ht'
    · obtain ⟨-, -, s2, hs2⟩ := hr' k hk
      rw [ht] at hs2; cases hs2
  unfold bkz
  rw [if_neg hexcl, if_neg (by omega)]
  change (startOf o c prep n s).bind _ = _
  rw [h0]
  change (mainLoop o c e n inner fuel 0 AutoAbort.init s0).bind _ = _
  rw [hm]
  rfl

end main

/-- procedures whose LLL always fails inside `svp_reduction` -/
def failing : Ops Unit := { idle true with svp := fun _ _ _ s => .thrown s }

/-- **C24 violated**: "errors of sub-steps surface as a status" — an LLL failure inside a tour makes `bkz()` throw. -/
theorem C24_errors_as_status_violated :
    ¬ ∀ (σ : Type) (o : Ops σ) (c : Cfg (WithTop ℕ)) (e : Env (WithTop ℕ) σ) (s : σ), c.sd = false →
      ∃ st k s', bkz o c e id 3 10 10 s = .ok (st, k) s' := by
  intro h
  obtain ⟨st, k, s', h⟩ := h Unit failing (exCfg 2 false) (exEnv _) () rfl
  have : bkz failing (exCfg 2 false) (exEnv _) id 3 10 10 () = .thrown () := rfl
  rw [this] at h
  cases h

/-- two unclean tours, then the limit -/
example : bkz (idle false) (exCfg 2 false) (exEnv _) id 4 1 5 () = .ok (.loopsLimit, 2) () := rfl

/-- a clean tour -/
example : bkz (idle true) (exCfg 2 false) (exEnv _) id 4 1 5 () = .ok (.success, 1) () := rfl

/-- the block covers the basis -/
example : bkz (idle false) (exCfg 4 false) (exEnv _) id 4 1 5 () = .ok (.success, 1) () := rfl

/-- the clock ends the run before the second tour -/
example : bkz (idle false) { exCfg 2 false with maxTime := true } { exEnv _ with timeUp := fun i _ => decide (1 ≤ i) } id 4 1 5 () =
    .ok (.timeLimit, 1) () := rfl

/-- auto-abort at the second test, whose slope is not below the first -/
example : bkz (idle false) { exCfg 2 false with autoAbort := true, maxNoDec := 1, maxLoops := none } (exEnv _) id 4 1 5 () =
    .ok (.success, 1) () := rfl

end BKZ
end Fplll
