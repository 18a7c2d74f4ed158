import Verif.Proofs.Insert
import Verif.Props.BKZSvp

/-!
# C21: inserting an enumerated vector into the basis
-/

namespace Fplll

open Spec GSO BKZ

/-- **C21.**  Take an object with any legal history whose rows are all known, a block of `bs` rows from `kappa`, and coefficients `z`
with no common divisor (given as exact floats; no bound on their size).  `svp_postprocessing` returns normally (if the model's
loop bound is above `2 ∑ |zᵢ| + 1`), the block generates the same lattice, all other rows are the same, and: primal, row `kappa` is
`± ∑ zᵢ b_{kappa+i}`; dual, the functional with values `z` on the block now takes the values `0, …, 0, ±1`. -/
theorem C21_insert {d n : ℕ} (hn : 1 ≤ n) (ig wu wi fl : Bool) (b u v jz : Mat ℤ) (jf : Mat Exact)
    (ops : List (Op Exact)) (s : GSO Exact) (h : History (mk0 d n ig wu wi fl b u v jz jf) ops s) (hl : s.colsLocked = false)
    (hk : s.nKnownRows = d) (c : SvpCfg Exact) (kappa bs : ℕ) (hd : kappa + bs ≤ d) (x : ℕ → Exact) (z : ℕ → ℤ)
    (hx : ∀ i < bs, x i = some (z i : ℚ)) (hgcd : ∀ m : ℤ, (∀ i < bs, m ∣ z i) → IsUnit m)
    (hf : 2 * (∑ i ∈ Finset.range bs, |z i|) + 1 < c.inner) (dual : Bool) (w : W Exact) (hw : w.s = s) :
    ∃ w', postprocess c kappa bs x dual w = .ok () w' ∧ Inserted n kappa bs dual z s.b w'.s.b := by
  obtain ⟨hwf, hb, hu, hv, hd0, hc, hg, hwu, hwi, hk0, hl0⟩ := mk0_wf d n ig wu wi fl b u v jz jf hn
  have g0 := h.good hwf
  have hsd : s.d = d := g0.cfg.d.trans hd0
  have hsc : s.nCols = n := g0.cfg.nCols.trans hc
  subst hw
  have hfull : Full w.s := ⟨g0.wf, by omega, by rw [g0.wf.unlocked hl]; omega⟩
  obtain ⟨w', h1, h2⟩ := postprocess_inserted (kappa := kappa) (d := bs) c dual hfull (by omega) hx hgcd hf
  exact ⟨w', h1, hsc ▸ h2⟩

/-- **C21 (any float type).**  Whatever the floats and the coefficients are, insertion into rows `kappa, …, kappa + bs - 1` of the basis changes the basis by a
unimodular matrix. -/
theorem C21_insert_unimodular {F : Type} [FloatOps F] {d n : ℕ} (hn : 1 ≤ n) (ig wu wi fl : Bool) (b jz : Mat ℤ) (jf : Mat F)
    (ops : List (Op F)) (s : GSO F) (h : History (mk0 d n ig wu wi fl b idMat idMat jz jf) ops s) (hl : s.colsLocked = false)
    (hk : s.nKnownRows = d) (c : SvpCfg F) (kappa bs : ℕ) (hbs : 1 ≤ bs) (hd : kappa + bs ≤ d) (x : ℕ → F) (dual : Bool)
    (w w' : W F) (hw : w.s = s) (hout : StopsIn (postprocess c kappa bs x dual w) w') :
    lattice (toM d n w'.s.b) = lattice (toM d n b) := by
  obtain ⟨hwf, hb, hu, hv, hd0, hc, hg, hwu, hwi, hk0, hl0⟩ := mk0_wf d n ig wu wi fl b idMat idMat jz jf hn
  have g0 := h.good hwf
  have hsd : s.d = d := g0.cfg.d.trans hd0
  have hsc : s.nCols = n := g0.cfg.nCols.trans hc
  have hla := (h.claims hn ig wu wi fl b jz jf (fun hwf => .refl hwf)).1
  subst hw
  have hfull : Full w.s := ⟨g0.wf, by omega, by rw [g0.wf.unlocked hl]; omega⟩
  have hi : Inv w.s w := ⟨hfull, .refl _, uniB_of_uni (.of_eq rfl rfl rfl), fun _ => .of_eq rfl rfl rfl⟩
  have := (postprocess_all (Q := fun _ => True) c x dual hbs (by omega) hi (fun _ => trivial)).stopsIn hout
  obtain ⟨T, T', a1, a2, a3⟩ := this.uniB
  generalize w.s = s at *
  subst hsd hsc
  rw [a3, lattice_mul ⟨T', a1, a2⟩, hla]

/-! ## Concrete cases -/

/-- coefficients `6, -10, 15`: no two are coprime, none is a unit -/
def exZ : ℕ → ℤ := fun i => if i = 0 then 6 else if i = 1 then -10 else 15

theorem exZ_coprime (m : ℤ) (h : ∀ i < 3, m ∣ exZ i) : IsUnit m := by
  have h0 := h 0 (by norm_num)
  have h1 := h 1 (by norm_num)
  have h2 := h 2 (by norm_num)
  have : m ∣ 1 := by
    have := dvd_sub (dvd_sub h2 (dvd_neg.2 h1)) (dvd_neg.2 (dvd_neg.2 h0))
    have e : exZ 2 - -exZ 1 - - -exZ 0 = -1 := by decide
    rw [e] at this
    exact dvd_neg.1 this
  exact isUnit_of_dvd_one this

/-- the history that makes three rows known -/
example (dual : Bool) (b : Mat ℤ) :
    ∃ w', postprocess (F := Exact) ⟨⟨some (51 / 100), some (99 / 100), false, false⟩, 2, 100, 1⟩ 0 3 (fun i => some (exZ i : ℚ)) dual
      ⟨((((mk0 3 4 true true true false b idMat idMat (fun _ _ => 0) (fun _ _ => none)).discoverRow).discoverRow).discoverRow), 0, 0, false⟩ =
        .ok () w' ∧ Inserted 4 0 3 dual exZ b w'.s.b := by
  obtain ⟨hwf, hb, hu, hv, hd, hc, hg, hwu, hwi, hk, hl⟩ :=
    mk0_wf 3 4 true true true false b idMat idMat (fun _ _ => 0) (fun _ _ => (none : Exact)) (by norm_num)
  obtain ⟨w', h1, h2⟩ := C21_insert (d := 3) (n := 4) (by norm_num) true true true false b idMat idMat (fun _ _ => 0) (fun _ _ => none)
    [.discover, .discover, .discover] _
    (.cons (by simp [Op.ok, hk, hd]) (.cons (by simp [Op.ok, Op.run, discoverRow, hk, hd]) (.cons (by simp [Op.ok, Op.run, discoverRow, hk, hd]) (.nil _))))
    (by simp [Op.run, discoverRow, hl]) (by simp [Op.run, discoverRow, hk])
    ⟨⟨some (51 / 100), some (99 / 100), false, false⟩, 2, 100, 1⟩ 0 3 le_rfl (fun i => some (exZ i : ℚ)) exZ (fun _ _ => rfl) exZ_coprime
    (by decide) dual ⟨_, 0, 0, false⟩ rfl
  refine ⟨w', h1, ?_⟩
  simpa [Op.run, discoverRow, hb] using h2

end Fplll
