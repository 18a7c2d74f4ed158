import Verif.Model.GsoDump
import Verif.Proofs.SVP

/-!
# C97: `dump_mu_d` and `dump_r_d` return the Gram-Schmidt coefficients of a block
-/

namespace Fplll
namespace GSO

open Spec FloatOps

variable {F : Type}

/-! ## The loops -/

theorem forUp_setAt (arr : ℕ → F) (base n : ℕ) (f : ℕ → F) (k : ℕ) : forUp 0 n (fun j a => setAt a (base + j) (f j)) arr k = if base ≤ k ∧ k < base + n then f (k - base) else arr k := by
  refine forUp_inv (P := fun i (a : ℕ → F) => ∀ k, a k = if base ≤ k ∧ k < base + i then f (k - base) else arr k) _ (Nat.zero_le n) arr (fun k => by rw [if_neg (by omega)]) ?_ k
  intro i a _ _ h k
  unfold setAt
  by_cases hk : k = base + i
  · rw [if_pos hk, if_pos (by omega), hk, Nat.add_sub_cancel_left]
  · rw [if_neg hk, h]
    by_cases h2 : base ≤ k ∧ k < base + i
    · rw [if_pos h2, if_pos (by omega)]
    · rw [if_neg h2, if_neg (by omega)]

theorem forUp_setAt2 (arr : ℕ → F) (B : ℕ) (f : ℕ → ℕ → F) : ∀ i j, j < B → (∀ k, i * B + j = k → i < B →
    forUp 0 B (fun i a => forUp 0 B (fun j a => setAt a (i * B + j) (f i j)) a) arr k = f i j) := by
  intro i j hj k hk hi
  have key := forUp_inv (P := fun n (a : ℕ → F) => ∀ i j, i < n → j < B → a (i * B + j) = f i j) (fun i a => forUp 0 B (fun j a => setAt a (i * B + j) (f i j)) a) (Nat.zero_le B) arr (fun i j h => by omega) (by
    intro n a _ _ h i j hi hj
    rw [forUp_setAt]
    by_cases hin : i = n
    · subst hin
      rw [if_pos ⟨by omega, by omega⟩, Nat.add_sub_cancel_left]
    · have : (i + 1) * B ≤ n * B := Nat.mul_le_mul_right B (by omega)
      have e : (i + 1) * B = i * B + B := by ring
      rw [if_neg (by omega)]
      exact h i j (by omega) hj)
  rw [← hk]
  exact key i j hi hj

theorem forUp_setAt2_keep (arr : ℕ → F) (B : ℕ) (f : ℕ → ℕ → F) (k : ℕ) (hk : B * B ≤ k) : forUp 0 B (fun i a => forUp 0 B (fun j a => setAt a (i * B + j) (f i j)) a) arr k = arr k := by
  refine forUp_inv' (P := fun a : ℕ → F => a k = arr k) _ 0 B arr rfl ?_
  intro i a _ hi h
  have : (i + 1) * B ≤ B * B := Nat.mul_le_mul_right B (by omega)
  have e : (i + 1) * B = i * B + B := by ring
  rw [forUp_setAt, if_neg (by omega)]
  exact h

theorem forUp_push (l : List F) (n : ℕ) (f : ℕ → F) : forUp 0 n (fun i (r : List F) => r ++ [f i]) l = l ++ (List.range n).map f := by
  refine forUp_inv (P := fun i r => r = l ++ (List.range i).map f) _ (Nat.zero_le n) l (by simp) ?_
  intro i r _ _ h
  rw [h, List.range_succ, List.map_append, List.append_assoc]
  rfl

/-! ## The Gram-Schmidt loop does not touch the diagonal of `mu` nor what is above it -/

section
variable [FloatOps F]

theorem updateGsoLoop_mu (i n : ℕ) : ∀ (j : ℕ) (s : GSO F) (a c : ℕ), a ≤ c → (updateGsoLoop i n j s).2.mu a c = s.mu a c := by
  induction n with
  | zero => intro j s a c _; rfl
  | succ n ih =>
    intro j s a c hac
    unfold updateGsoLoop
    dsimp only
    by_cases hj : j < i
    · rw [if_pos hj]
      have hm : ∀ m : F, Mat.set (s.cacheGram i j).mu i j m a c = s.mu a c := fun m => by
        unfold Mat.set setAt
        by_cases ha : a = i
        · subst ha
          rw [if_pos rfl, if_neg (by omega)]
          rfl
        · rw [if_neg ha]
          rfl
      split_ifs
      · rw [ih _ _ _ _ hac]; exact hm _
      · exact hm _
    · rw [if_neg hj, ih _ _ _ _ hac]
      rfl

theorem updateGsoFrom_mu (n : ℕ) : ∀ (i : ℕ) (s : GSO F) (a c : ℕ), a ≤ c → (updateGsoFrom n i s).2.mu a c = s.mu a c := by
  induction n with
  | zero => intro i s a c _; rfl
  | succ n ih =>
    intro i s a c hac
    have h1 : (s.updateGsoRow i (i + 1)).2.mu a c = s.mu a c := by
      unfold updateGsoRow
      dsimp only
      rw [updateGsoLoop_mu _ _ _ _ _ _ hac]
      split_ifs <;> rfl
    unfold updateGsoFrom
    dsimp only
    split_ifs
    · rw [ih _ _ _ _ hac, h1]
    · exact h1

end

/-! ## The theorems -/

theorem session_dims {d n : ℕ} (hn : 1 ≤ n) (ig wu wi fl : Bool) (b u v jz : Mat ℤ) (jf : Mat Exact) (s : GSO Exact) (h : Session (mk0 d n ig wu wi fl b u v jz jf) s none) (hu : s.colsLocked = false) : s.updateGso.2.d = s.d := by
  have hwf := (mk0_wf d n ig wu wi fl b u v jz jf hn).1
  obtain ⟨hs, hf⟩ := h.inv hwf (mk0_fresh d n ig wu wi fl b u v jz jf hn)
  obtain ⟨b1, b2, b3, b4, b5, b6, b7, b8⟩ := updateGsoFrom_fresh s.d 0 s hs hf hu (by omega) (by omega) (by intro k hk; omega)
  exact b5

variable {d n : ℕ} {ig wu wi fl : Bool} {b u v jz : Mat ℤ} {jf : Mat Exact} {s : GSO Exact}

/-- the request: a block of at least one and at most 46340 rows that exist -/
structure Request (rows offset size : ℤ) : Prop where
  pos : 1 ≤ size
  off : 0 ≤ offset
  last : offset + size ≤ rows
  small : size ≤ 46340

theorem Request.inside {rows offset size : ℤ} (h : Request rows offset size) : ¬ dumpOutside rows offset size := by
  have := h.off
  have := h.last
  rintro ⟨-, h | h⟩ <;> omega

theorem Request.sq {rows offset size : ℤ} (h : Request rows offset size) : ¬ intMax < size * size := by
  have h1 := h.pos
  have h2 := h.small
  unfold intMax
  nlinarith

/-- **C97, `r`.**  After `update_gso()`, in any session and for linearly independent rows, `dump_r_d` returns exactly the squared lengths of the Gram-Schmidt vectors of the block: in the first entries of the array, and appended to the vector. -/
theorem C97_r (hn : 1 ≤ n) (h : Session (mk0 d n ig wu wi fl b u v jz jf) s none) (hu : s.colsLocked = false) (hp : ∀ i < s.d, 0 < normStar s.nCols (basisQ s.b) i) {offset size : ℤ} (hq : Request s.d offset size) :
    (∀ r : List Exact, s.updateGso.2.dumpRVec r offset size = some (r ++ (List.range size.toNat).map fun i => some (normStar s.nCols (basisQ s.b) (offset.toNat + i)))) ∧
    ∀ r : ℕ → Exact, ∃ r', s.updateGso.2.dumpRPtr r offset size = some r' ∧ (∀ i, i < size.toNat → r' i = some (normStar s.nCols (basisQ s.b) (offset.toNat + i))) ∧ ∀ i, size.toNat ≤ i → r' i = r i := by
  obtain ⟨-, -, -, g1, -⟩ := SVP.session_data hn ig wu wi fl b u v jz jf s h hu hp
  have hd := session_dims hn ig wu wi fl b u v jz jf s h hu
  have hsz : dumpSize s.updateGso.2.d size = size := by unfold dumpSize; rw [if_neg (by have := hq.pos; omega)]
  have hb : ∀ i, i < size.toNat → offset.toNat + i < s.d := fun i hi => by
    have := hq.last
    have := hq.off
    omega
  constructor
  · intro r
    unfold dumpRVec
    dsimp only
    rw [hsz, if_neg hq.sq, hd, if_neg hq.inside, forUp_push]
    congr 2
    refine List.map_congr_left fun i hi => g1 _ (hb i (List.mem_range.1 hi))
  · intro r
    unfold dumpRPtr
    dsimp only
    rw [hsz, hd, if_neg hq.inside]
    have key := forUp_setAt r 0 size.toNat fun i => s.updateGso.2.r (offset.toNat + i) (offset.toNat + i)
    simp only [Nat.zero_add] at key
    refine ⟨_, rfl, fun i hi => ?_, fun i hi => ?_⟩
    · rw [key, if_pos ⟨by omega, by omega⟩, Nat.sub_zero]
      exact g1 _ (hb i hi)
    · rw [key, if_neg (by omega)]

/-- **C97, `mu`.**  Under the same conditions `dump_mu_d` writes the Gram-Schmidt coefficients of the block below the diagonal of the `size × size` matrix, row by row, and nothing behind the matrix. -/
theorem C97_mu_partial (hn : 1 ≤ n) (h : Session (mk0 d n ig wu wi fl b u v jz jf) s none) (hu : s.colsLocked = false) (hp : ∀ i < s.d, 0 < normStar s.nCols (basisQ s.b) i) {offset size : ℤ} (hq : Request s.d offset size) (mu : ℕ → Exact) :
    ∃ mu', s.updateGso.2.dumpMuPtr mu offset size = some mu' ∧
      (∀ i j, j < i → i < size.toNat → mu' (i * size.toNat + j) = some (muS s.nCols (basisQ s.b) (offset.toNat + i) (offset.toNat + j))) ∧ ∀ k, size.toNat * size.toNat ≤ k → mu' k = mu k := by
  obtain ⟨-, -, g1, -, -⟩ := SVP.session_data hn ig wu wi fl b u v jz jf s h hu hp
  have hd := session_dims hn ig wu wi fl b u v jz jf s h hu
  have hsz : dumpSize s.updateGso.2.d size = size := by unfold dumpSize; rw [if_neg (by have := hq.pos; omega)]
  unfold dumpMuPtr
  dsimp only
  have hsq := hq.sq
  rw [hsz, hd, if_neg hq.inside, if_neg (by omega)]
  refine ⟨_, rfl, fun i j hj hi => ?_, fun k hk => forUp_setAt2_keep _ _ _ k hk⟩
  rw [forUp_setAt2 mu size.toNat (fun i j => s.updateGso.2.mu (offset.toNat + i) (offset.toNat + j)) i j (by omega) _ rfl hi]
  refine g1 _ _ (by omega) ?_
  have := hq.last
  have := hq.off
  omega

/-- **C97, the default.**  Without a size (zero or negative) and with offset 0 the block is the whole matrix. -/
theorem C97_default {F : Type} (s : GSO F) {size : ℤ} (hs : size ≤ 0) : (∀ mu, s.dumpMuPtr mu 0 size = s.dumpMuPtr mu 0 s.d) ∧ (∀ r, s.dumpRPtr r 0 size = s.dumpRPtr r 0 s.d) ∧ ∀ r, s.dumpRVec r 0 size = s.dumpRVec r 0 s.d := by
  have h1 : dumpSize s.d size = s.d := by unfold dumpSize; rw [if_pos hs]
  have h2 : dumpSize s.d s.d = s.d := by unfold dumpSize; split_ifs <;> rfl
  refine ⟨fun mu => ?_, fun r => ?_, fun r => ?_⟩
  · unfold dumpMuPtr; dsimp only; rw [h1, h2]
  · unfold dumpRPtr; dsimp only; rw [h1, h2]
  · unfold dumpRVec; dsimp only; rw [h1, h2]

/-- **C97 is violated for the default size with an offset**: the block has as many rows as the matrix and does not end with it. -/
theorem C97_offset_violated {F : Type} (s : GSO F) (hd : 1 ≤ s.d) {offset size : ℤ} (ho : 1 ≤ offset) (hs : size ≤ 0) :
    (∀ mu, s.dumpMuPtr mu offset size = none) ∧ (∀ mu, s.dumpMuVec mu offset size = none) ∧ (∀ r, s.dumpRPtr r offset size = none) ∧ ∀ r, s.dumpRVec r offset size = none := by
  have h1 : dumpSize s.d size = s.d := by unfold dumpSize; rw [if_pos hs]
  have h2 : dumpOutside s.d offset s.d := ⟨by omega, .inr (by omega)⟩
  refine ⟨fun mu => ?_, fun mu => ?_, fun r => ?_, fun r => ?_⟩
  · unfold dumpMuPtr; dsimp only; rw [h1, if_pos h2]
  · unfold dumpMuVec; dsimp only; rw [h1, if_pos h2, ite_self]
  · unfold dumpRPtr; dsimp only; rw [h1, if_pos h2]
  · unfold dumpRVec; dsimp only; rw [h1, if_pos h2, ite_self]

/-- **C97 is violated by the vector overload of `dump_mu_d`**: the documentation says that new entries are pushed to the end, but the vector is passed by value, so the caller's vector never changes. -/
theorem C97_vector_violated {F : Type} (s : GSO F) (mu mu' : List F) (offset size : ℤ) (h : s.dumpMuVec mu offset size = some mu') : mu' = mu := by
  unfold dumpMuVec at h
  dsimp only at h
  split_ifs at h
  exact (Option.some.inj h).symm

/-- **C97 is violated on the diagonal and above**: these entries of `mu` are never written, so `dump_mu_d` reads uninitialised memory – on the diagonal of a freshly constructed and updated object it returns whatever was there, instead of 1. -/
theorem C97_uninitialised_violated (d n : ℕ) (ig wu wi fl : Bool) (b u v jz : Mat ℤ) (jf : Mat Exact) (mu mu' : ℕ → Exact) {offset size : ℤ}
    (hq : Request (mk0 d n ig wu wi fl b u v jz jf).updateGso.2.d offset size) (hr : (mk0 d n ig wu wi fl b u v jz jf).updateGso.2.dumpMuPtr mu offset size = some mu') {i j : ℕ} (hij : i ≤ j) (hj : j < size.toNat) :
    mu' (i * size.toNat + j) = jf (offset.toNat + i) (offset.toNat + j) := by
  generalize hs : (mk0 d n ig wu wi fl b u v jz jf).updateGso.2 = t at *
  have hsz : dumpSize t.d size = size := by unfold dumpSize; rw [if_neg (by have := hq.pos; omega)]
  unfold dumpMuPtr at hr
  dsimp only at hr
  have hsq := hq.sq
  rw [hsz, if_neg hq.inside, if_neg (by omega)] at hr
  cases hr
  rw [forUp_setAt2 mu size.toNat (fun i j => t.mu (offset.toNat + i) (offset.toNat + j)) i j hj _ rfl (by omega), ← hs]
  unfold updateGso
  rw [updateGsoFrom_mu _ _ _ _ _ (by omega)]
  have hmu : (mk0 d n ig wu wi fl b u v jz jf).mu = jf := by
    unfold mk0 sizeIncreased
    refine forUp_inv' (P := fun s : GSO Exact => s.mu = jf) _ _ _ _ rfl fun i s _ _ h => ?_
    dsimp only
    split_ifs
    · exact h
    · exact h
  rw [hmu]

/-- **C97 is violated for blocks of more than 46340 rows**: the product of the sizes overflows `int`, also for `dump_r_d`, which needs no more than the size itself. -/
theorem C97_overflow_violated {F : Type} (s : GSO F) (r : List F) {offset size : ℤ} (h : 46341 ≤ size) : s.dumpRVec r offset size = none := by
  have h1 : dumpSize s.d size = size := by unfold dumpSize; rw [if_neg (by omega)]
  unfold dumpRVec
  dsimp only
  rw [h1, if_pos]
  unfold intMax
  nlinarith

/-! ## Example: the basis (2, 0), (1, 3), unset memory 7 -/

def exDump : GSO Exact := (mk0 2 2 true false false false (fun i j => if i = 0 then (if j = 0 then 2 else 0) else if j = 0 then 1 else 3) (fun _ _ => 0) (fun _ _ => 0) (fun _ _ => 0) fun _ _ => some 7).updateGso.2

example : exDump.dumpRVec [some 5] 0 (-1) = some [some 5, some 4, some 9] ∧ exDump.dumpRVec [] 1 1 = some [some 9] ∧
    ((exDump.dumpMuPtr (fun _ => none) 0 2).map fun m => (List.range 5).map m) = some [some 7, some 7, some (1 / 2), some 7, none] ∧
    exDump.dumpMuVec [] 0 2 = some [] ∧ exDump.dumpRVec [] 1 (-1) = none := by decide +kernel

end GSO
end Fplll
