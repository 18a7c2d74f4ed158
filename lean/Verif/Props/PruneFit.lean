import Verif.Model.PruneFit
import Verif.Props.StratUse

/-!
# The pruning vector must have the size of the block (C103)
-/

namespace Fplll
namespace PruneFit

open BKZ Strat StratUse

variable {σ : Type}

theorem fillFrom_some (f : ℚ → ℚ) (v : List ℚ) (d : ℕ) (h : d ≤ v.length) : fillFrom f v d = some ((v.take d).map f) := by
  induction d with
  | zero => rfl
  | succ d ih =>
    have hd : d < v.length := h
    rw [fillFrom, ih hd.le, List.getElem?_eq_getElem hd, List.take_succ_eq_append_getElem hd, List.map_append]
    rfl

theorem fillFrom_none (f : ℚ → ℚ) (v : List ℚ) (d : ℕ) (h : v.length < d) : fillFrom f v d = none := by
  induction d with
  | zero => omega
  | succ d ih =>
    rw [fillFrom]
    rcases Nat.lt_or_ge v.length d with h1 | h1
    · rw [ih h1]; rfl
    · have : v.length = d := by omega
      rw [fillFrom_some f v d h1, List.getElem?_eq_none this.le]; rfl

/-- the vector is empty or has the size of the block -/
def Fits (v : List ℚ) (d : ℕ) : Prop := v = [] ∨ v.length = d

/-- **C103, one enumeration.** A vector that is empty or has the size of the block (below the compiled maximum) is used entry by entry:
entry `i` gives the bound of level `i`, and without a vector all bounds are the radius. -/
theorem C103_start (M : ℕ) (ext : Ext) (fl : ℚ → ℚ) {v : List ℚ} (maxdist : ℚ) {d : ℕ} (hv : Fits v d) (hd : d < M) :
    enumStart M ext fl v maxdist d =
      if ext = .done then .external (if v = [] then List.replicate d 1 else v)
      else .own (if v = [] then List.replicate d maxdist else v.map fun c => fl (c * maxdist)) := by
  have h1 : ¬ (ext ≠ .absent ∧ ¬ (v.isEmpty = true ∨ v.length = d)) := by
    rintro ⟨-, h⟩
    rcases hv with rfl | hv
    · exact h (Or.inl rfl)
    · exact h (Or.inr hv)
  rw [enumStart, if_neg h1, ownStart, if_pos hd, extStart, setBounds]
  by_cases h0 : v = []
  · subst h0
    rfl
  · have hl := hv.resolve_left h0
    have he : ¬ v.isEmpty = true := fun h => h0 (List.isEmpty_iff.1 h)
    rw [if_neg he, if_neg he, fillFrom_some _ _ _ hl.ge, fillFrom_some _ _ _ hl.ge, List.take_of_length_le hl.le, if_neg h0, if_neg h0]
    simp only [List.map_id_fun, id_eq]

/-- **C103 violated, short vectors.** fplll's own enumeration reads a shorter vector behind its end. -/
theorem C103_short_violated (M : ℕ) (fl : ℚ → ℚ) {v : List ℚ} (maxdist : ℚ) {d : ℕ} (h0 : v ≠ []) (hv : v.length < d) (hd : d < M) :
    enumStart M .absent fl v maxdist d = .ub := by
  rw [enumStart, if_neg (fun h => h.1 rfl), if_neg (by decide), ownStart, if_pos hd, setBounds,
    if_neg (fun h => h0 (List.isEmpty_iff.1 h)), fillFrom_none _ _ _ hv]

/-- **C103, long vectors** are cut off without notice … -/
theorem C103_long (M : ℕ) (fl : ℚ → ℚ) {v : List ℚ} (maxdist : ℚ) {d : ℕ} (h0 : v ≠ []) (hv : d ≤ v.length) (hd : d < M) :
    enumStart M .absent fl v maxdist d = .own ((v.take d).map fun c => fl (c * maxdist)) := by
  rw [enumStart, if_neg (fun h => h.1 rfl), if_neg (by decide), ownStart, if_pos hd, setBounds,
    if_neg (fun h => h0 (List.isEmpty_iff.1 h)), fillFrom_some _ _ _ hv]

/-- … **but** any other size ends the program if there is an external enumerator, even one that cannot treat the block. -/
theorem C103_abort (M : ℕ) {ext : Ext} (hext : ext ≠ .absent) (fl : ℚ → ℚ) {v : List ℚ} (maxdist : ℚ) {d : ℕ} (hv : ¬ Fits v d) :
    enumStart M ext fl v maxdist d = .aborted := by
  rw [enumStart, if_pos ⟨hext, fun h => hv (h.imp (fun h => List.isEmpty_iff.1 h) id)⟩]

/-- all parameter sets of entries up to `B` have vectors of the right size -/
def AllFit (S : List Strategy) (B : ℕ) : Prop :=
  ∀ i ≤ B, ∀ st, S[i]? = some st → ∀ p ∈ st.pruning, Fits p.coefficients i

theorem guarded_ok {S : List Strategy} {E : Acts σ} {n : ℤ} {P : σ → Prop} {B : ℕ} (hE : ActsOk n S B E P)
    (hF : AllFit S B) {M : ℕ} (hM : B < M) (ext : ℤ → ℤ → σ → Ext) (fl : ℚ → ℚ) (maxdist : ℤ → ℤ → σ → ℚ) :
    ActsOk n S B (guarded M ext fl maxdist E) P := by
  refine ⟨hE.start, hE.before, fun k b dual p s hk hb hB hn hp hs => ?_, hE.finish, hE.lll, hE.sizeRed, hE.symG, hE.noProgress⟩
  obtain ⟨st, hst, hm⟩ := hp
  have hfit := hF b hB st hst p hm
  have h1 := hE.after k b dual p s hk hb hB hn ⟨st, hst, hm⟩ hs
  change (match enumStart M (ext k b s) fl p.coefficients (maxdist k b s) (b : ℤ).toNat with
    | .external _ => E.after k b dual p s
    | .own _ => E.after k b dual p s
    | .aborted => .ub s
    | .ub => .ub s : Out σ Unit).All P _
  rw [Int.toNat_natCast, C103_start M _ fl _ hfit (by omega)]
  split_ifs <;> exact h1

section run
variable {D : Type} [LinearOrder D] [OrderTop D]

/-- **C103, runs.** If moreover every vector of an entry up to the block size is empty or has the size of its entry, and the block size
is below the compiled maximum, no enumeration of a run aborts or reads outside its vector, with or without an external enumerator. -/
theorem C103_run {S : List Strategy} {E : Acts σ} {n : ℤ} {P : σ → Prop} {c : Cfg D} (hE : ActsOk n S c.blockSize.toNat E P) (hn : 1 ≤ n)
    (hsd : c.sd = true → c.blockSize ≤ n) (hS : Serves S c.blockSize.toNat) (hF : AllFit S c.blockSize.toNat) {M : ℕ}
    (hM : c.blockSize.toNat < M) (ext : ℤ → ℤ → σ → Ext) (fl : ℚ → ℚ) (maxdist : ℤ → ℤ → σ → ℚ) (depth : ℕ)
    (hd : c.blockSize.toNat ≤ depth) {e : Env D σ} (he : ∀ i s, P s → P (e.slope i s).2) {prep : σ → σ} (hprep : ∀ s, P s → P (prep s))
    (inner fuel : ℕ) (s : σ) (hs : P s) :
    (bkz (useOps S (guarded M ext fl maxdist E) depth) c e prep n inner fuel s).All P (fun _ => False) :=
  C102_safe (guarded_ok hE hF hM ext fl maxdist) hn hsd hS depth hd he hprep inner fuel s hs

/-- **C103, no strategies**: there are no vectors. -/
theorem C103_default (B : ℕ) : AllFit (paramStrategies B []) B := by
  intro i hi st hst p hp
  rw [C26_param_default B i hi, Option.some.injEq] at hst
  subst hst
  rw [List.mem_singleton] at hp
  subst hp
  exact Or.inl rfl

/-- **C103, files** whose vectors are empty or have the size of their entry. -/
theorem C103_file (l : List Entry) (B : ℕ)
    (hl : ∀ e ∈ l, ∀ p ∈ e.pruning.getD [], Fits p.coefficients e.blockSize) : AllFit (paramStrategies B (loadStrategies l)) B := by
  obtain ⟨h1, h2, h3, -⟩ := C26_load l
  by_cases h0 : (loadStrategies l).isEmpty = true
  · rw [List.isEmpty_iff.1 h0]; exact C103_default B
  intro i hi st hst p hp
  rw [paramStrategies, if_neg h0] at hst
  have hlen : i < fileSize l := by
    rw [← h1]
    by_contra h
    rw [List.getElem?_eq_none (by omega)] at hst
    exact absurd hst (by simp)
  rcases hL : lastFor l i with - | e
  · rw [h3 i hlen hL, Option.some.injEq] at hst
    subst hst
    rw [List.mem_singleton] at hp
    subst hp
    exact Or.inl rfl
  · obtain ⟨st', hst', -, -, hpr⟩ := h2 i e hL
    rw [hst', Option.some.injEq] at hst
    subst hst
    have hm := List.mem_of_getLast? hL
    rw [List.mem_filter, beq_iff_eq] at hm
    rw [hpr] at hp
    by_cases he : e.pruning.getD [] = []
    · rw [if_pos he, List.mem_singleton] at hp
      subst hp
      exact Or.inl rfl
    · rw [if_neg he] at hp
      rw [← hm.2]
      exact hl e hm.1 p hp

/-- **C103 violated, runs.** Nothing checks the vectors of a file: with a short vector for the size of the first block the first
enumeration of BKZ reads outside it, in a program without an external enumerator. -/
theorem C103_run_violated {S : List Strategy} {E : Acts σ} (hE : Plain E) {n : ℤ} (hn : 2 ≤ n) {c : Cfg D}
    (hbs : 2 ≤ c.blockSize) (h1 : c.sd = false) (h2 : c.sld = false) (h3 : c.maxLoops = none) (h4 : c.maxTime = false)
    (h5 : c.autoAbort = false) {b : ℕ} (hb : (b : ℤ) = min c.blockSize n) {st : Strategy} (hst : S[b]? = some st)
    (hpre : st.preprocessing = []) (hne : st.pruning ≠ []) (hpr : ∀ p ∈ st.pruning, p.coefficients ≠ [] ∧ p.coefficients.length < b)
    {M : ℕ} (hM : b < M) (fl : ℚ → ℚ) (maxdist : ℤ → ℤ → σ → ℚ) (e : Env D σ) (prep : σ → σ) (depth inner fuel : ℕ) (s : σ) :
    ∃ s', bkz (useOps (paramStrategies c.blockSize.toNat S) (guarded M (fun _ _ _ => .absent) fl maxdist E) depth) c e prep n inner
      (fuel + 1) s = .ub s' := by
  have hE' : Plain (guarded M (fun _ _ _ => .absent) fl maxdist E) := ⟨hE.start, hE.before, hE.rounds⟩
  refine bkz_first hn hbs h1 h2 h3 h4 h5 (fun s => ?_) e prep inner fuel s
  have hS : paramStrategies c.blockSize.toNat S = S := by
    cases S with
    | nil => exact absurd hst (by simp)
    | cons a b => rfl
  rw [hS, ← hb]
  cases depth with
  | zero => exact ⟨s, rfl⟩
  | succ depth =>
    refine svpUse_enum hE' hst hpre (fun s => ?_) s
    obtain ⟨p, hm, hp⟩ := C26_get_pruning_mem (E.dist 0 b s) (2 ^ 80) st.pruning hne
    have hc : choosePruning S (guarded M (fun _ _ _ => .absent) fl maxdist E) 0 b s = some p := by
      rw [choosePruning, readStrategy_nat, hst]
      exact hp
    rw [enumPart, hc]
    change (match enumStart M .absent fl p.coefficients (maxdist 0 b s) (b : ℤ).toNat with
      | .external _ => E.after 0 b false p s
      | .own _ => E.after 0 b false p s
      | .aborted => .ub s
      | .ub => .ub s : Out σ Unit) = _
    obtain ⟨q1, q2⟩ := hpr p hm
    rw [Int.toNat_natCast, C103_short_violated M fl _ q1 q2 hM]

end run

/-! ## Concrete cases -/

/-- a file with vectors for sizes 3 and 4 -/
def fitting : List Entry := [⟨4, some [3], some [⟨1, [1, 1, 1 / 2, 1 / 4], 1 / 2⟩]⟩, ⟨3, none, some [⟨1, [1, 3 / 4, 1 / 2], 1 / 3⟩, ⟨2, [], 1⟩]⟩]

example : AllFit (paramStrategies 4 (loadStrategies fitting)) 4 :=
  C103_file fitting 4 (by unfold Fits; decide +kernel)

example : Serves (paramStrategies 4 (loadStrategies fitting)) 4 :=
  C102_file fitting 4 ⟨_, List.mem_cons_self, le_rfl⟩ (by decide)

example : enumStart 256 .absent id [1, 1 / 2] 8 2 = .own [8, 4] := by decide +kernel
example : enumStart 256 .done id [1, 1 / 2] 8 2 = .external [1, 1 / 2] := by decide +kernel
example : enumStart 256 .absent id [1, 1 / 2] 8 3 = .ub := by decide +kernel
example : enumStart 256 .absent id [1, 1 / 2, 1 / 4] 8 2 = .own [8, 4] := by decide +kernel
example : enumStart 256 .failed id [1, 1 / 2, 1 / 4] 8 2 = .aborted := by decide +kernel
example : enumStart 256 .absent id [] 8 256 = .aborted := by decide +kernel

/-- a file whose vector for size 4 has three entries is loaded all the same -/
example : (loadStrategies [⟨4, none, some [⟨1, [1, 1, 1 / 2], 1 / 2⟩]⟩])[4]? = some ⟨4, [⟨1, [1, 1, 1 / 2], 1 / 2⟩], []⟩ := by
  decide +kernel

end PruneFit
end Fplll
