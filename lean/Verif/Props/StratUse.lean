import Verif.Proofs.StratUse
import Verif.Props.Strategy

/-!
# Which strategies are read by block reduction, and how deep preprocessing nests (C102)
-/

namespace Fplll
namespace StratUse

open BKZ Strat

variable {σ : Type}

/-- a vector of strategies that serves blocks of sizes `1, …, B`: each has an entry, with parameters for pruning, whose preprocessing
uses smaller, positive block sizes -/
def Serves (S : List Strategy) (B : ℕ) : Prop :=
  ∀ i, 1 ≤ i → i ≤ B → ∃ st, S[i]? = some st ∧ st.pruning ≠ [] ∧ ∀ p ∈ st.preprocessing, 1 ≤ p ∧ p < i

/-- on blocks inside the basis of `n` rows nothing but the use of strategies is undefined, provided that enumeration is used on blocks
of size at most `B` and gets one of the parameter sets of the entry for its block size; `P` is kept -/
structure ActsOk (n : ℤ) (S : List Strategy) (B : ℕ) (E : Acts σ) (P : σ → Prop) : Prop where
  start : ∀ k b dual s, 0 ≤ k → 1 ≤ b → k + b ≤ n → P s → (E.start k b dual s).All P (fun _ => False)
  before : ∀ k b dual s, 0 ≤ k → 1 ≤ b → k + b ≤ n → P s → (E.before k b dual s).All P (fun _ => False)
  after : ∀ k (b : ℕ) dual p s, 0 ≤ k → 1 ≤ b → b ≤ B → k + b ≤ n → (∃ st, S[b]? = some st ∧ p ∈ st.pruning) → P s → (E.after k b dual p s).All P (fun _ => False)
  finish : ∀ k b dual s, 0 ≤ k → 1 ≤ b → k + b ≤ n → P s → (E.finish k b dual s).All P (fun _ => False)
  lll : ∀ s, P s → (E.lll 0 0 n s).All P (fun _ => False)
  sizeRed : ∀ k s, 1 ≤ k → k ≤ n → P s → (E.sizeRed (k - 1) k (k - 2) s).All P (fun _ => False)
  symG : ∀ s, P s → P (E.symG s)
  noProgress : ∀ s, P s → P (E.noProgress s).2

theorem readStrategy_nat (S : List Strategy) (i : ℕ) : readStrategy S i = S[i]? := by
  rw [readStrategy, if_pos (Int.natCast_nonneg i), Int.toNat_natCast]

theorem preTours_all {P Q : σ → Prop} {t : ℤ → ℤ → ℤ → σ → Out σ Bool} {lo hi : ℤ} (l : List ℕ)
    (h : ∀ p ∈ l, ∀ s, P s → (t p lo hi s).All P Q) (s : σ) (hs : P s) : (preTours t lo hi l s).All P Q := by
  induction l generalizing s with
  | nil => exact hs
  | cons p l ih =>
    exact (h p List.mem_cons_self s hs).bind fun _ s hs => ih (fun q hq => h q (List.mem_cons_of_mem _ hq)) s hs

theorem roundLoop_all {P Q : σ → Prop} {S : List Strategy} {E : Acts σ} {t : ℤ → ℤ → ℤ → σ → Out σ Bool} {k b : ℤ} {dual : Bool}
    (h1 : ∀ s, P s → (E.before k b dual s).All P Q) (h2 : ∀ s, P s → (prePart S t k b s).All P Q)
    (h3 : ∀ s, P s → (enumPart S E k b dual s).All P Q) (m : ℕ) (s : σ) (hs : P s) :
    (roundLoop S E t k b dual m s).All P Q := by
  induction m generalizing s with
  | zero => exact hs
  | succ m ih =>
    exact (h1 s hs).bind fun _ s hs => (h2 s hs).bind fun _ s hs => (h3 s hs).bind fun _ s hs => ih s hs

theorem useOps_le {S : List Strategy} {E : Acts σ} {n : ℤ} {P : σ → Prop} {B0 : ℕ} (hE : ActsOk n S B0 E P) (d B : ℕ) (hd : B ≤ d) (hB0 : B ≤ B0)
    (hS : Serves S B) : OpsLe n B (useOps S E d) P (fun _ => False) := by
  induction d generalizing B with
  | zero => exact ⟨fun k b dual s _ h1 h2 => by omega, hE.lll, hE.sizeRed, hE.symG, hE.noProgress⟩
  | succ d ih =>
    refine ⟨fun k b dual s hk hb hB hn hs => ?_, hE.lll, hE.sizeRed, hE.symG, hE.noProgress⟩
    obtain ⟨i, rfl⟩ : ∃ i : ℕ, b = i := ⟨b.toNat, by omega⟩
    obtain ⟨st, hst, hpr, hpre⟩ := hS i (by omega) (by omega)
    have hin : OpsLe n ((i - 1 : ℕ) : ℤ) (useOps S E d) P (fun _ => False) :=
      ih (i - 1) (by omega) (by omega) fun j h1 h2 => hS j h1 (by omega)
    refine (hE.start k i dual s hk hb hn hs).bind fun _ s hs => (roundLoop_all (fun s hs => hE.before k i dual s hk hb hn hs)
      (fun s hs => ?_) (fun s hs => ?_) _ s hs).bind fun _ s hs => hE.finish k i dual s hk hb hn hs
    · rw [prePart, readStrategy_nat, hst]
      refine preTours_all _ (fun p hp s hs => ?_) s hs
      obtain ⟨hp1, hp2⟩ := hpre p hp
      exact tour_le hin (by omega) (by omega) hk (by omega) hn hs
    · have hc : choosePruning S E k i s = getPruning (E.dist k i s) (2 ^ 80) st.pruning := by
        rw [choosePruning, readStrategy_nat, hst]; rfl
      obtain ⟨p, hm, hp⟩ := C26_get_pruning_mem (E.dist k i s) (2 ^ 80) st.pruning hpr
      rw [enumPart, hc, hp]
      exact hE.after k i dual p s hk (by omega) (by omega) hn ⟨st, hst, hm⟩ hs

section run
variable {D : Type} [LinearOrder D] [OrderTop D]

/-- **C102, safety.** Let the vector serve all blocks up to the block size.  Then a run of BKZ, self-dual BKZ or slide reduction never
reads outside the vector, takes the pruning parameters of each
block from the entry for its size, which is at most the block size, and never nests more than `block_size` calls of
`svp_reduction` — whatever LLL, enumeration and insertion do, and however often a block is repeated. -/
theorem C102_safe {S : List Strategy} {E : Acts σ} {n : ℤ} {P : σ → Prop} {c : Cfg D} (hE : ActsOk n S c.blockSize.toNat E P) (hn : 1 ≤ n)
    (hsd : c.sd = true → c.blockSize ≤ n) (hS : Serves S c.blockSize.toNat) (depth : ℕ) (hd : c.blockSize.toNat ≤ depth) {e : Env D σ}
    (he : ∀ i s, P s → P (e.slope i s).2) {prep : σ → σ} (hprep : ∀ s, P s → P (prep s)) (inner fuel : ℕ) (s : σ) (hs : P s) :
    (bkz (useOps S E depth) c e prep n inner fuel s).All P (fun _ => False) :=
  bkz_le (useOps_le hE depth _ hd le_rfl hS) hn (by omega) hsd he inner fuel (hprep s hs) hs fun _ h => h

/-- **C102, no strategies.** The vector that `BKZParam` fills in when it is given an empty one serves its block size. -/
theorem C102_default (B : ℕ) : Serves (paramStrategies B []) B := fun i _ hi =>
  ⟨_, C26_param_default B i hi, List.cons_ne_nil _ _, fun _ hp => absurd hp List.not_mem_nil⟩

/-- **C102, files.** So does the vector loaded from a file with an entry for a block size `≥ B`, all of whose entries preprocess with
smaller, positive block sizes; entries for the sizes in between may be missing. -/
theorem C102_file (l : List Entry) (B : ℕ) (hB : ∃ e ∈ l, B ≤ e.blockSize)
    (hl : ∀ e ∈ l, ∀ p ∈ e.preprocessing.getD [], 1 ≤ p ∧ p < e.blockSize) : Serves (paramStrategies B (loadStrategies l)) B := by
  obtain ⟨e0, he0, hB⟩ := hB
  obtain ⟨h1, h2, h3, h4⟩ := C26_load l
  have hlt : ∀ e ∈ l, e.blockSize < fileSize l := by
    clear h1 h2 h3 h4 hl he0
    intro e he
    unfold fileSize
    induction l with
    | nil => exact absurd he List.not_mem_nil
    | cons b l ihl =>
      rw [List.foldr_cons]
      rcases List.mem_cons.1 he with rfl | he
      · exact lt_max_of_lt_left (Nat.lt_succ_self _)
      · exact lt_max_of_lt_right (ihl he)
  have hsz : B < fileSize l := hB.trans_lt (hlt e0 he0)
  have hne : (loadStrategies l).isEmpty = false := by
    cases h : loadStrategies l with
    | nil => rw [h] at h1; simp only [List.length_nil] at h1; omega
    | cons a b => rfl
  intro i hi1 hi2
  rw [paramStrategies, hne, if_neg (by simp)]
  rcases hL : lastFor l i with - | e
  · exact ⟨_, h3 i (by omega) hL, List.cons_ne_nil _ _, fun _ hp => absurd hp List.not_mem_nil⟩
  · obtain ⟨st, hst, -, hpre, -⟩ := h2 i e hL
    refine ⟨st, hst, h4 st (List.mem_of_getElem? hst), fun p hp => ?_⟩
    have hm := List.mem_of_getLast? hL
    rw [List.mem_filter, beq_iff_eq] at hm
    rw [hpre] at hp
    have := hl e hm.1 p hp
    rw [hm.2] at this
    exact this

/-! ## What goes wrong otherwise -/

/-- LLL, rerandomisation and size reduction succeed, and every block is treated at least once -/
structure Plain (E : Acts σ) : Prop where
  start : ∀ k b dual s, ∃ s', E.start k b dual s = .ok () s'
  before : ∀ k b dual s, ∃ s', E.before k b dual s = .ok () s'
  rounds : ∀ k b dual s, 1 ≤ E.rounds k b dual s

omit [LinearOrder D] [OrderTop D] in
/-- the first block of a tour starts at row 0 -/
theorem tour_first {o : Ops σ} {bs hi : ℤ} (hhi : 2 ≤ hi) {s s' : σ} (h : o.svp 0 (min bs hi) false s = .ub s') :
    tour o bs 0 hi s = .ub s' := by
  unfold tour truncTour
  by_cases hlt : bs < hi
  · obtain ⟨k, hk⟩ : ∃ k, (hi - bs - 0).toNat = k + 1 := ⟨(hi - bs - 0).toNat - 1, by omega⟩
    rw [min_eq_left hlt.le] at h
    rw [hk, loop, h]
    rfl
  · have h0 : (hi - bs - 0).toNat = 0 := by omega
    obtain ⟨k, hk⟩ : ∃ k, (hi - 1 - 0).toNat = k + 1 := ⟨(hi - 1 - 0).toNat - 1, by omega⟩
    rw [min_eq_right (not_lt.1 hlt)] at h
    rw [h0, loop]
    change (hkz o (max (hi - bs) 0) hi s).bind _ = _
    rw [max_eq_right (by omega), hkz, hk, loop, sub_zero, h]
    rfl

omit [LinearOrder D] [OrderTop D] in
theorem svpUse_first {S : List Strategy} {E : Acts σ} (hE : Plain E) {t : ℤ → ℤ → ℤ → σ → Out σ Bool} {k b : ℤ} {dual : Bool}
    (h : ∀ s, ∃ s', prePart S t k b s = .ub s') (s : σ) : ∃ s', svpUse S E t k b dual s = .ub s' := by
  obtain ⟨s1, h1⟩ := hE.start k b dual s
  obtain ⟨m, hm⟩ : ∃ m, E.rounds k b dual s1 = m + 1 := ⟨E.rounds k b dual s1 - 1, by have := hE.rounds k b dual s1; omega⟩
  obtain ⟨s2, h2⟩ := hE.before k b dual s1
  obtain ⟨s3, h3⟩ := h s2
  refine ⟨s3, ?_⟩
  unfold svpUse
  rw [h1]
  change (roundLoop S E t k b dual (E.rounds k b dual s1) s1).bind _ = _
  rw [hm, roundLoop, h2]
  change (((prePart S t k b s2).bind _).bind _ : Out σ Bool) = _
  rw [h3]
  rfl

omit [LinearOrder D] [OrderTop D] in
theorem svpUse_enum {S : List Strategy} {E : Acts σ} (hE : Plain E) {t : ℤ → ℤ → ℤ → σ → Out σ Bool} {b : ℕ} {st : Strategy}
    (hst : S[b]? = some st) (hpre : st.preprocessing = []) {k : ℤ} {dual : Bool} (h : ∀ s, enumPart S E k b dual s = .ub s) (s : σ) :
    ∃ s', svpUse S E t k b dual s = .ub s' := by
  obtain ⟨s1, e1⟩ := hE.start k b dual s
  obtain ⟨m, hm⟩ : ∃ m, E.rounds k b dual s1 = m + 1 := ⟨E.rounds k b dual s1 - 1, by have := hE.rounds k b dual s1; omega⟩
  obtain ⟨s2, e2⟩ := hE.before k b dual s1
  refine ⟨s2, ?_⟩
  unfold svpUse
  rw [e1]
  change (roundLoop S E _ k b dual (E.rounds k b dual s1) s1).bind _ = _
  rw [hm, roundLoop, e2]
  change (((prePart S _ k b s2).bind _).bind _ : Out σ Bool) = _
  rw [prePart, readStrategy_nat, hst]
  change ((preTours _ k (k + (b : ℤ)) st.preprocessing s2).bind _ : Out σ Unit).bind _ = _
  rw [hpre, preTours]
  change ((enumPart S E k b dual s2).bind _ : Out σ Unit).bind _ = _
  rw [h]
  rfl

/-- the first tour of a run of BKZ with the default flags -/
theorem bkz_first {o : Ops σ} {n : ℤ} (hn : 2 ≤ n) {c : Cfg D} (hbs : 2 ≤ c.blockSize) (h1 : c.sd = false) (h2 : c.sld = false)
    (h3 : c.maxLoops = none) (h4 : c.maxTime = false) (h5 : c.autoAbort = false)
    (h : ∀ s, ∃ s', o.svp 0 (min c.blockSize n) false s = .ub s') (e : Env D σ) (prep : σ → σ) (inner fuel : ℕ) (s : σ) :
    ∃ s', bkz o c e prep n inner (fuel + 1) s = .ub s' := by
  obtain ⟨s', hs'⟩ := h (prep s)
  have ht := tour_first hn hs'
  have ha : autoOn c = false := by simp [autoOn, h1, h5]
  refine ⟨s', ?_⟩
  have hm : mainLoop o c e n inner (fuel + 1) 0 AutoAbort.init (prep s) = .ub s' := by
    rw [mainLoop, if_neg (by simp [h3]), if_neg (by simp [h4])]
    dsimp only
    rw [ha, if_neg (by simp), if_neg (by simp), oneTour, if_neg (by simp [h1]), if_neg (by simp [h2]), ht]
    rfl
  unfold bkz
  rw [if_neg (by simp [h1]), if_neg (by omega)]
  simp only [h1, Bool.false_eq_true, if_false, Out.bind, hm]

/-- **C102 violated, short vector.** A vector that is not empty but has no entry for the size of the first block is read behind its
end: `BKZParam` adds entries to an empty vector only. -/
theorem C102_short_violated {S : List Strategy} (hS : S ≠ []) {E : Acts σ} (hE : Plain E) {n : ℤ} (hn : 2 ≤ n) {c : Cfg D}
    (hbs : 2 ≤ c.blockSize) (h1 : c.sd = false) (h2 : c.sld = false) (h3 : c.maxLoops = none) (h4 : c.maxTime = false)
    (h5 : c.autoAbort = false) (hlen : (S.length : ℤ) ≤ min c.blockSize n) (e : Env D σ) (prep : σ → σ) (depth inner fuel : ℕ) (s : σ) :
    ∃ s', bkz (useOps (paramStrategies c.blockSize.toNat S) E depth) c e prep n inner (fuel + 1) s = .ub s' := by
  refine bkz_first hn hbs h1 h2 h3 h4 h5 (fun s => ?_) e prep inner fuel s
  have hp : paramStrategies c.blockSize.toNat S = S := by
    cases S with
    | nil => exact absurd rfl hS
    | cons a b => rfl
  rw [hp]
  cases depth with
  | zero => exact ⟨s, rfl⟩
  | succ depth =>
    refine svpUse_first hE (fun s => ⟨s, ?_⟩) s
    rw [prePart, readStrategy, if_pos (by omega), List.getElem?_eq_none (by omega)]

omit [LinearOrder D] [OrderTop D] in
theorem cycle_svp {S : List Strategy} {E : Acts σ} (hE : Plain E) {b : ℕ} (hb : 2 ≤ b) {st : Strategy} (hst : S[b]? = some st) {p : ℕ}
    {l : List ℕ} (hpre : st.preprocessing = p :: l) (hp : b ≤ p) (depth : ℕ) (s : σ) :
    ∃ s', (useOps S E depth).svp 0 b false s = .ub s' := by
  induction depth generalizing s with
  | zero => exact ⟨s, rfl⟩
  | succ depth ih =>
    refine svpUse_first hE (fun s => ?_) s
    obtain ⟨s', hs'⟩ := ih s
    refine ⟨s', ?_⟩
    rw [prePart, readStrategy_nat, hst]
    change preTours _ 0 (0 + (b : ℤ)) st.preprocessing s = _
    rw [hpre, preTours, zero_add,
      tour_first (bs := (p : ℤ)) (hi := (b : ℤ)) (by omega) (by rw [min_eq_right (by omega)]; exact hs')]
    rfl

/-- **C102 violated, endless preprocessing.** If the first preprocessing step of the first block's strategy is not with a smaller block
size, the run exhausts every stack, although all reads are inside the vector: nothing checks the block sizes. -/
theorem C102_cycle_violated {S : List Strategy} {E : Acts σ} (hE : Plain E) {n : ℤ} (hn : 2 ≤ n) {c : Cfg D}
    (hbs : 2 ≤ c.blockSize) (h1 : c.sd = false) (h2 : c.sld = false) (h3 : c.maxLoops = none) (h4 : c.maxTime = false)
    (h5 : c.autoAbort = false) {b : ℕ} (hb : (b : ℤ) = min c.blockSize n) {st : Strategy} (hst : S[b]? = some st) {p : ℕ} {l : List ℕ}
    (hpre : st.preprocessing = p :: l) (hp : b ≤ p) (e : Env D σ) (prep : σ → σ) (depth inner fuel : ℕ) (s : σ) :
    ∃ s', bkz (useOps (paramStrategies c.blockSize.toNat S) E depth) c e prep n inner (fuel + 1) s = .ub s' := by
  refine bkz_first hn hbs h1 h2 h3 h4 h5 (fun s => ?_) e prep inner fuel s
  have hS : paramStrategies c.blockSize.toNat S = S := by
    cases S with
    | nil => exact absurd hst (by simp)
    | cons a b => rfl
  rw [hS, ← hb]
  exact cycle_svp hE (by omega) hst hpre hp depth s

/-- **C102 violated, no parameters.** A strategy made by hand without parameter sets (loading a file adds one) is dereferenced. -/
theorem C102_empty_violated {S : List Strategy} {E : Acts σ} (hE : Plain E) {n : ℤ} (hn : 2 ≤ n) {c : Cfg D}
    (hbs : 2 ≤ c.blockSize) (h1 : c.sd = false) (h2 : c.sld = false) (h3 : c.maxLoops = none) (h4 : c.maxTime = false)
    (h5 : c.autoAbort = false) {b : ℕ} (hb : (b : ℤ) = min c.blockSize n) {st : Strategy} (hst : S[b]? = some st)
    (hpre : st.preprocessing = []) (hpr : st.pruning = []) (e : Env D σ) (prep : σ → σ) (depth inner fuel : ℕ) (s : σ) :
    ∃ s', bkz (useOps (paramStrategies c.blockSize.toNat S) E depth) c e prep n inner (fuel + 1) s = .ub s' := by
  refine bkz_first hn hbs h1 h2 h3 h4 h5 (fun s => ?_) e prep inner fuel s
  have hS : paramStrategies c.blockSize.toNat S = S := by
    cases S with
    | nil => exact absurd hst (by simp)
    | cons a b => rfl
  rw [hS, ← hb]
  cases depth with
  | zero => exact ⟨s, rfl⟩
  | succ depth =>
    refine svpUse_enum hE hst hpre (fun s => ?_) s
    have hc : choosePruning S E 0 b s = none := by
      rw [choosePruning, readStrategy_nat, hst]
      change getPruning _ _ st.pruning = none
      rw [hpr]; rfl
    rw [enumPart, hc]

end run

/-! ## Concrete cases -/

/-- blocks are counted; every block is treated twice -/
def countActs : Acts ℕ where
  start := fun _ _ _ s => .ok () s
  rounds := fun _ _ _ _ => 2
  before := fun _ _ _ s => .ok () (s + 1)
  dist := fun _ _ _ p => p.ghFactor
  after := fun _ _ _ _ s => .ok () s
  finish := fun _ _ _ s => .ok true s
  lll := fun _ _ _ s => .ok (true, false) s
  sizeRed := fun _ _ _ s => .ok true s
  symG := id
  noProgress := fun s => (true, s)

/-- block size 4, no flags -/
def plainCfg : Cfg (WithTop ℤ) := ⟨4, false, false, none, false, false, false, id, 5⟩

/-- size 4 is preprocessed with size 3, size 3 with size 2 -/
def nested : List Entry := [⟨4, some [3, 2], none⟩, ⟨3, some [2], none⟩]

example : ActsOk 6 (loadStrategies nested) 4 countActs (fun _ => True) :=
  ⟨fun _ _ _ _ _ _ _ _ => trivial, fun _ _ _ _ _ _ _ _ => trivial, fun _ _ _ _ _ _ _ _ _ _ _ => trivial, fun _ _ _ _ _ _ _ _ => trivial,
    fun _ _ => trivial, fun _ _ _ _ _ => trivial, fun _ _ => trivial, fun _ _ => trivial⟩

example : Plain countActs := ⟨fun _ _ _ s => ⟨s, rfl⟩, fun _ _ _ s => ⟨s + 1, rfl⟩, fun _ _ _ _ => one_le_two⟩

example : Serves (paramStrategies 4 (loadStrategies nested)) 4 :=
  C102_file nested 4 ⟨_, List.mem_cons_self, le_rfl⟩ (by decide)

/-- the number of blocks in a run on a basis of 6 rows, with nested preprocessing three deep -/
example : (match bkz (useOps (paramStrategies 4 (loadStrategies nested)) countActs 4) plainCfg ⟨fun _ _ => false, fun _ s => (0, s)⟩ id 6 0 5 0 with
    | .ok (.success, 1) s => decide (10 < s)
    | _ => false) = true := by decide +kernel

/-- room for two nested calls is not enough there -/
example : (match bkz (useOps (paramStrategies 4 (loadStrategies nested)) countActs 2) plainCfg ⟨fun _ _ => false, fun _ s => (0, s)⟩ id 6 0 5 0 with
    | .ub _ => true
    | _ => false) = true := by decide +kernel

/-- a file for block size 3 only, used with block size 4 -/
example : (loadStrategies [⟨3, some [2], none⟩]).length = 4 := by decide +kernel

/-- a file in which size 4 is preprocessed with itself -/
example : (loadStrategies [⟨4, some [4], none⟩])[4]? = some ⟨4, [PruningParams.default], [4]⟩ := by decide +kernel

end StratUse
end Fplll
