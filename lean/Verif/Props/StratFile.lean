import Verif.Props.PruneFit
import Verif.Props.JsonBytes

/-!
# From the bytes of a strategies file to the end of a reduction (C103)
-/

namespace Fplll
namespace PruneFit

open BKZ Strat StratUse JsonRead Json

variable {σ : Type}

/-- what C26, C100 and C101 say about a loaded vector determines it -/
theorem eq_load {S : List Strategy} {l : List Entry} (h1 : S.length = fileSize l)
    (h2 : ∀ i e, lastFor l i = some e → ∃ s, S[i]? = some s ∧ s.blockSize = i ∧ s.preprocessing = e.preprocessing.getD [] ∧
      s.pruning = if e.pruning.getD [] = [] then [PruningParams.default] else e.pruning.getD [])
    (h3 : ∀ i < fileSize l, lastFor l i = none → S[i]? = some ⟨0, [PruningParams.default], []⟩) : S = loadStrategies l := by
  obtain ⟨k1, k2, k3, -⟩ := C26_load l
  refine List.ext_getElem? fun i => ?_
  by_cases hi : i < fileSize l
  · rcases hL : lastFor l i with - | e
    · rw [h3 i hi hL, k3 i hi hL]
    · obtain ⟨⟨a1, a2, a3⟩, ha, b1, b2, b3⟩ := h2 i e hL
      obtain ⟨⟨c1, c2, c3⟩, hc, d1, d2, d3⟩ := k2 i e hL
      dsimp only at b1 b2 b3 d1 d2 d3
      rw [ha, hc, b1, b2, b3, d1, d2, d3]
  · rw [List.getElem?_eq_none (by omega), List.getElem?_eq_none (by omega)]

/-- what an entry of a strategies file should say -/
def EntryOk (e : Entry) : Prop :=
  (∀ p ∈ e.preprocessing.getD [], 1 ≤ p ∧ p < e.blockSize) ∧ ∀ p ∈ e.pruning.getD [], Fits p.coefficients e.blockSize

/-- **C103, from the file to the reduction.** The bytes of a strategies file - the UTF-8 encoding of a JSON array of entries that
preprocess with smaller block sizes and whose pruning vectors are empty or have the size of the entry, at least one for a size not below
the block size asked for - are loaded, and every run of block reduction with the result is safe: all strategies and bounds are read inside
their vectors, no check of the enumeration aborts, and at most `block_size` calls are nested. -/
theorem C103_bytes {D : Type} [LinearOrder D] [OrderTop D] {cv : JsonRead.Conv} {fin : List Char → Bool} {l : List Char} {vs : List JVal}
    (h : Doc (.arr vs) l) (hnv : NoOverflow fin (.arr vs)) {es : List Entry} (hes : List.Forall₂ (EntryOf cv) es vs) {m : List Char}
    (hm : Mark m) {pf : ℕ} (hf : 2 * (enc (m ++ l)).length < pf) (hok : ∀ e ∈ es, EntryOk e) {c : Cfg D}
    (hB : ∃ e ∈ es, c.blockSize.toNat ≤ e.blockSize) {M : ℕ} (hM : c.blockSize.toNat < M) :
    ∃ S, loadB cv fin pf (enc (m ++ l)) = .ok S ∧
      ∀ {E : Acts σ} {n : ℤ} {P : σ → Prop}, ActsOk n (paramStrategies c.blockSize.toNat S) c.blockSize.toNat E P → 1 ≤ n →
        (c.sd = true → c.blockSize ≤ n) → ∀ (ext : ℤ → ℤ → σ → Ext) (fl : ℚ → ℚ) (maxdist : ℤ → ℤ → σ → ℚ) (depth : ℕ),
        c.blockSize.toNat ≤ depth → ∀ {e : Env D σ}, (∀ i s, P s → P (e.slope i s).2) → ∀ {prep : σ → σ}, (∀ s, P s → P (prep s)) →
        ∀ (inner fuel : ℕ) (s : σ), P s →
          (bkz (useOps (paramStrategies c.blockSize.toNat S) (guarded M ext fl maxdist E) depth) c e prep n inner fuel s).All P
            (fun _ => False) := by
  obtain ⟨S, h1, h2, h3, h4, -⟩ := C101_load (cv := cv) h hnv hes hm hf
  obtain rfl := eq_load h2 h3 h4
  refine ⟨_, h1, fun hE hn hsd ext fl maxdist depth hd e he prep hprep inner fuel s hs => ?_⟩
  exact C103_run hE hn hsd (C102_file es _ hB fun e he => (hok e he).1) (C103_file es _ fun e he => (hok e he).2) hM ext fl maxdist depth
    hd he hprep inner fuel s hs

/-- the entries of the examples in `Props/PruneFit` are as they should be -/
example : ∀ e ∈ fitting, EntryOk e := by unfold EntryOk Fits; decide +kernel

end PruneFit
end Fplll
