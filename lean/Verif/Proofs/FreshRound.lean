import Verif.Proofs.GsoRound
import Verif.Proofs.LLL

/-!
# Freshness of the GSO data, with rounding and the exact Gram matrix

What is marked as valid was computed from the current basis by the recurrences of `update_gso_row`.
-/

namespace Fplll

open FloatOps Spec

namespace GSO

variable {fl : ℚ → ℚ}

/-- `r(i, j)` and `mu(i, j)` were computed from the current basis -/
def Entry (fl : ℚ → ℚ) (s : GSO (Rd fl)) (i j : ℕ) : Prop :=
  s.r i j = Rd.of (csum fl (s.ip i j) (fun k => Rd.val (s.mu j k)) (fun k => Rd.val (s.r i k)) j) ∧
    (j < i → s.mu i j = Rd.of (fl (Rd.val (s.r i j) / Rd.val (s.r j j))) ∧ Rd.val (s.r j j) ≠ 0)

theorem Entry.r_some {s : GSO (Rd fl)} {i j : ℕ} (h : Entry fl s i j) : s.r i j = Rd.of (Rd.val (s.r i j)) := by
  rw [h.1]; rfl

theorem Entry.mu_some {s : GSO (Rd fl)} {i j : ℕ} (h : Entry fl s i j) (hj : j < i) : s.mu i j = Rd.of (Rd.val (s.mu i j)) := by
  rw [(h.2 hj).1]; rfl

theorem Entry.congr {s s' : GSO (Rd fl)} {i i' j : ℕ} (h : Entry fl s i j) (hi : j < i' → j < i) (hip : s'.ip i' j = s.ip i j) (hr : ∀ k ≤ j, s'.r i' k = s.r i k)
    (hm : ∀ k < j, s'.mu j k = s.mu j k) (hrj : j < i' → s'.r j j = s.r j j) (hmi : j < i' → s'.mu i' j = s.mu i j) : Entry fl s' i' j := by
  refine ⟨?_, fun hj => ?_⟩
  · rw [hr j le_rfl, hip, h.1]
    congr 1
    exact csum_congr (fun k hk => by rw [hm k hk]) (fun k hk => by rw [hr k hk.le])
  · rw [hmi hj, hr j le_rfl, hrj hj]
    exact h.2 (hi hj)

/-- what is marked as valid was computed from the current basis -/
structure FreshR (s : GSO (Rd fl)) : Prop where
  int : s.intGram = true
  validLe : ∀ i < s.nKnownRows, s.gsoValidCols i ≤ i + 1
  link : ∀ i < s.nKnownRows, ∀ j < s.gsoValidCols i, j < i → j + 1 ≤ s.gsoValidCols j
  entry : ∀ i < s.nKnownRows, ∀ j < s.gsoValidCols i, Entry fl s i j

theorem updateGsoLoop_freshR (i n : ℕ) : ∀ (j : ℕ) (s : GSO (Rd fl)), s.intGram = true → (∀ q ≤ i, s.g i q = s.ip i q) → i < s.nKnownRows →
    (∀ p < s.nKnownRows, s.gsoValidCols p ≤ p + 1) → (∀ p < s.nKnownRows, i < p → s.gsoValidCols p ≤ i) → (∀ p < s.nKnownRows, p ≠ i → ∀ q < s.gsoValidCols p, Entry fl s p q) →
    (∀ q < j, Entry fl s i q) → (∀ k < j + n, k < i → k + 1 ≤ s.gsoValidCols k) → j + n ≤ i + 1 → (updateGsoLoop i n j s).1 = true →
    (∀ p < s.nKnownRows, p ≠ i → ∀ q < s.gsoValidCols p, Entry fl (updateGsoLoop i n j s).2 p q) ∧ (∀ q < j + n, Entry fl (updateGsoLoop i n j s).2 i q) ∧
      (∀ p, p ≠ i → (updateGsoLoop i n j s).2.mu p = s.mu p ∧ (updateGsoLoop i n j s).2.r p = s.r p) ∧ (updateGsoLoop i n j s).2.gsoValidCols = setAt s.gsoValidCols i (j + n) := by
  induction n with
  | zero =>
    intro j s _ _ _ _ _ ho hr _ _ _
    exact ⟨ho, hr, fun p _ => ⟨rfl, rfl⟩, rfl⟩
  | succ n ih =>
    intro j s hG hg hik hvl hup ho hrow hready hj hok
    have hji : j ≤ i := by omega
    have hc : s.cacheGram i j = s := by
      have e : (s.cacheGram i j).gf = s.gf := by
        unfold cacheGram
        dsimp only
        rw [if_neg (by rw [hG]; simp)]
      have e2 : s.cacheGram i j = { s with gf := (s.cacheGram i j).gf } := rfl
      rw [e2, e]
    have hgv : s.gramVal i j = Rd.of (fl (s.ip i j)) := by
      unfold gramVal
      rw [if_pos hG, hg j hji]
      rfl
    have hmu : ∀ k < j, s.mu j k = Rd.of (Rd.val (s.mu j k)) := by
      intro k hk
      by_cases e : j = i
      · subst e; exact (hrow k hk).mu_some hk
      · have := hready j (by omega) (by omega)
        exact (ho j (by omega) e k (by omega)).mu_some hk
    have hF : gsoInner s.mu s.r i j (s.gramVal i j) = Rd.of (csum fl (s.ip i j) (fun k => Rd.val (s.mu j k)) (fun k => Rd.val (s.r i k)) j) := by
      rw [hgv]
      exact gsoInner_round hmu (fun k hk => (hrow k hk).r_some)
    rw [updateGsoLoop] at hok ⊢
    dsimp only at hok ⊢
    rw [hc, hF] at hok ⊢
    generalize hx : csum fl (s.ip i j) (fun k => Rd.val (s.mu j k)) (fun k => Rd.val (s.r i k)) j = x at hok ⊢
    -- the entries after writing `r(i, j)` and `mu(i, j)`
    have step : ∀ mu' : Mat (Rd fl), (∀ p q, (p ≠ i ∨ q ≠ j) → mu' p q = s.mu p q) → (j < i → mu' i j = Rd.of (fl (x / Rd.val (s.r j j))) ∧ Rd.val (s.r j j) ≠ 0) →
        ∀ t : GSO (Rd fl), t = { s with r := Mat.set s.r i j (Rd.of x), mu := mu' } → (updateGsoLoop i n (j + 1) t).1 = true →
        (∀ p < s.nKnownRows, p ≠ i → ∀ q < s.gsoValidCols p, Entry fl (updateGsoLoop i n (j + 1) t).2 p q) ∧ (∀ q < j + (n + 1), Entry fl (updateGsoLoop i n (j + 1) t).2 i q) ∧
          (∀ p, p ≠ i → (updateGsoLoop i n (j + 1) t).2.mu p = s.mu p ∧ (updateGsoLoop i n (j + 1) t).2.r p = s.r p) ∧
          (updateGsoLoop i n (j + 1) t).2.gsoValidCols = setAt s.gsoValidCols i (j + (n + 1)) := by
      intro mu' hmu' hmij t ht hok'
      have t_r : ∀ p q, (p ≠ i ∨ q ≠ j) → t.r p q = s.r p q := by
        intro p q h
        rw [ht]; dsimp only
        rw [Mat.set_apply, if_neg (by tauto)]
      have t_rij : t.r i j = Rd.of x := by
        rw [ht]; dsimp only
        rw [Mat.set_apply, if_pos ⟨rfl, rfl⟩]
      have t_mu : ∀ p q, (p ≠ i ∨ q ≠ j) → t.mu p q = s.mu p q := by
        intro p q h
        rw [ht]; exact hmu' p q h
      have t_ip : ∀ p q, t.ip p q = s.ip p q := by intro p q; rw [ht]; rfl
      have t_v : t.gsoValidCols = s.gsoValidCols := by rw [ht]
      have t_k : t.nKnownRows = s.nKnownRows := by rw [ht]
      have t_g : t.g = s.g := by rw [ht]
      have t_G : t.intGram = true := by rw [ht]; exact hG
      have t_mij : j < i → t.mu i j = Rd.of (fl (x / Rd.val (s.r j j))) ∧ Rd.val (s.r j j) ≠ 0 := by rw [ht]; exact hmij
      clear ht
      obtain ⟨a1, a2, a3, a4⟩ := ih (j + 1) t t_G (by intro q hq; rw [t_g, t_ip]; exact hg q hq) (by omega) (by rw [t_v, t_k]; exact hvl) (by rw [t_v, t_k]; exact hup) (by
          rw [t_v, t_k]
          intro p hp hpi q hq
          have hv := hvl p hp
          have hqi : q ≠ i := by
            rcases Nat.lt_or_ge p i with h | h
            · omega
            · have := hup p hp (by omega)
              omega
          exact (ho p hp hpi q hq).congr id (t_ip _ _) (fun k _ => t_r _ _ (.inl hpi)) (fun k _ => t_mu _ _ (.inl hqi)) (fun _ => t_r _ _ (.inl hqi)) (fun _ => t_mu _ _ (.inl hpi))) (by
          intro q hq
          by_cases hqj : q = j
          · subst hqj
            have e : csum fl (t.ip i q) (fun k => Rd.val (t.mu q k)) (fun k => Rd.val (t.r i k)) q = x := by
              rw [t_ip, ← hx]
              exact csum_congr (fun k hk => by rw [t_mu _ _ (.inr (by omega))]) (fun k hk => by rw [t_r _ _ (.inr (by omega))])
            refine ⟨by rw [e, t_rij], fun hlt => ?_⟩
            rw [t_rij, t_r q q (.inl (by omega))]
            exact t_mij hlt
          · exact (hrow q (by omega)).congr id (t_ip _ _) (fun k _ => t_r _ _ (.inr (by omega))) (fun k _ => t_mu _ _ (.inl (by omega))) (fun _ => t_r _ _ (.inl (by omega)))
              (fun _ => t_mu _ _ (.inr (by omega)))) (by rw [t_v]; intro k hk; exact hready k (by omega)) (by omega) hok'
      rw [t_v, t_k] at a1
      rw [t_v] at a4
      refine ⟨a1, fun q hq => a2 q (by omega), fun p hp => ?_, by rw [a4]; congr 1; omega⟩
      obtain ⟨b1, b2⟩ := a3 p hp
      exact ⟨b1.trans (by funext q; exact t_mu _ _ (.inl hp)), b2.trans (by funext q; exact t_r _ _ (.inl hp))⟩
    by_cases hlt : j < i
    · rw [if_pos hlt] at hok ⊢
      have hrj : (Mat.set s.r i j (Rd.of x)) j j = s.r j j := by
        rw [Mat.set_apply, if_neg (by omega)]
      rw [hrj] at hok ⊢
      have hjj : s.r j j = Rd.of (Rd.val (s.r j j)) := by
        have := hready j (by omega) hlt
        exact (ho j (by omega) (by omega) j (by omega)).r_some
      by_cases hne : Rd.val (s.r j j) = 0
      · exfalso
        have hdiv' : FloatOps.div (Rd.of x : Rd fl) (s.r j j) = (none : Option ℚ) := by
          conv_lhs => rw [hjj]
          change (if Rd.val (s.r j j) = 0 then (none : Option ℚ) else some (fl (x / Rd.val (s.r j j)))) = none
          rw [if_pos hne]
        rw [hdiv', if_neg (by change ¬ (false = true); simp)] at hok
        cases hok
      · have hdiv' : FloatOps.div (Rd.of x : Rd fl) (s.r j j) = (Rd.of (fl (x / Rd.val (s.r j j))) : Rd fl) := by
          conv_lhs => rw [hjj]
          change (if Rd.val (s.r j j) = 0 then (none : Option ℚ) else some (fl (x / Rd.val (s.r j j)))) = some (fl (x / Rd.val (s.r j j)))
          rw [if_neg hne]
        rw [hdiv', if_pos (by rfl)] at hok ⊢
        exact step (Mat.set s.mu i j (Rd.of (fl (x / Rd.val (s.r j j))))) (fun p q h => by rw [Mat.set_apply, if_neg (by tauto)])
          (fun _ => ⟨by rw [Mat.set_apply, if_pos ⟨rfl, rfl⟩], hne⟩) _ rfl hok
    · rw [if_neg hlt] at hok ⊢
      exact step s.mu (fun _ _ _ => rfl) (fun h => absurd h hlt) _ rfl hok

theorem discoverRow_freshR {s : GSO (Rd fl)} (hf : FreshR s) : FreshR s.discoverRow := by
  have hv : ∀ i, s.discoverRow.gsoValidCols i = if i = s.nKnownRows then 0 else s.gsoValidCols i := fun i => rfl
  have hk : s.discoverRow.nKnownRows = s.nKnownRows + 1 := rfl
  refine ⟨hf.int, ?_, ?_, ?_⟩
  · intro i hi
    rw [hk] at hi
    rw [hv]
    split_ifs with h
    · omega
    · exact hf.validLe i (by omega)
  · intro i hi j hj hji
    rw [hk] at hi
    rw [hv] at hj ⊢
    split_ifs at hj with h
    · omega
    · rw [if_neg (by omega)]
      exact hf.link i (by omega) j hj hji
  · intro i hi j hj
    rw [hk] at hi
    rw [hv] at hj
    split_ifs at hj with h
    · omega
    · exact hf.entry i (by omega) j hj

/-- a successful `update_gso_row` -/
theorem updateGsoRow_freshR {s : GSO (Rd fl)} (hs : WF s) (hf : FreshR s) {i l : ℕ} (hid : i < s.d) (hik : i ≤ s.nKnownRows) (hl : l ≤ i + 1) (hready : ∀ k < l, k < i → k + 1 ≤ s.gsoValidCols k)
    (hok : (s.updateGsoRow i l).1 = true) :
    FreshR (s.updateGsoRow i l).2 ∧ l ≤ (s.updateGsoRow i l).2.gsoValidCols i ∧
    (∀ k, k ≠ i → k < s.nKnownRows → (s.updateGsoRow i l).2.gsoValidCols k = s.gsoValidCols k) ∧
    (∀ k, k ≠ i → (s.updateGsoRow i l).2.mu k = s.mu k ∧ (s.updateGsoRow i l).2.r k = s.r k) := by
  unfold updateGsoRow at hok ⊢
  obtain ⟨t, ht⟩ : ∃ t, t = if s.nKnownRows ≤ i then s.discoverRow else s := ⟨_, rfl⟩
  rw [← ht] at hok ⊢
  dsimp only at hok ⊢
  have ht_wf : WF t := by
    rw [ht]; split_ifs with h
    · exact (discoverRow_good hs (by omega)).wf
    · exact hs
  have ht_f : FreshR t := by
    rw [ht]; split_ifs with h
    · exact discoverRow_freshR hf
    · exact hf
  have ht_k : i < t.nKnownRows := by
    rw [ht]; split_ifs with h
    · change i < s.nKnownRows + 1; omega
    · omega
  have ht_v : ∀ k, k < s.nKnownRows → t.gsoValidCols k = s.gsoValidCols k := by
    intro k hk
    rw [ht]; split_ifs with h
    · change setAt s.gsoValidCols s.nKnownRows 0 k = _
      unfold setAt; rw [if_neg (by omega)]
    · rfl
  have ht_m : t.mu = s.mu ∧ t.r = s.r := by rw [ht]; split_ifs <;> exact ⟨rfl, rfl⟩
  clear ht
  have hvi := ht_f.validLe i ht_k
  have fo := updateGsoLoop_fo i (l - t.gsoValidCols i) (t.gsoValidCols i) t
  by_cases hle : l ≤ t.gsoValidCols i
  · have e : l - t.gsoValidCols i = 0 := by omega
    rw [e] at hok ⊢
    have e2 : (updateGsoLoop i 0 (t.gsoValidCols i) t).2 = t := by
      have : setAt t.gsoValidCols i (t.gsoValidCols i) = t.gsoValidCols := by
        funext k; unfold setAt; split_ifs with h
        · rw [h]
        · rfl
      rw [updateGsoLoop]; dsimp only; rw [this]
    rw [e2]
    exact ⟨ht_f, hle, fun k _ h2 => ht_v k h2, fun k _ => by rw [ht_m.1, ht_m.2]; exact ⟨rfl, rfl⟩⟩
  · have hup : ∀ p < t.nKnownRows, i < p → t.gsoValidCols p ≤ i := by
      intro p hp hip
      by_contra hc
      have := ht_f.link p hp i (by omega) hip
      omega
    obtain ⟨a1, a2, a3, a4⟩ := updateGsoLoop_freshR i (l - t.gsoValidCols i) (t.gsoValidCols i) t ht_f.int
      (fun q hq => by
        have := ht_wf.gram ht_f.int i ht_k q (by omega)
        rwa [symGet_of_le _ hq] at this) ht_k ht_f.validLe hup (fun p hp _ q hq => ht_f.entry p hp q hq) (fun q hq => ht_f.entry i ht_k q hq)
      (fun k h1 h2 => by rw [ht_v k (by omega)]; exact hready k (by omega) h2) (by omega) hok
    have el : t.gsoValidCols i + (l - t.gsoValidCols i) = l := by omega
    rw [el] at a2 a4
    have hvv : ∀ k, (updateGsoLoop i (l - t.gsoValidCols i) (t.gsoValidCols i) t).2.gsoValidCols k = if k = i then l else t.gsoValidCols k := by
      intro k; rw [a4]; rfl
    generalize (updateGsoLoop i (l - t.gsoValidCols i) (t.gsoValidCols i) t).2 = w at *
    refine ⟨⟨by rw [fo.intGram]; exact ht_f.int, ?_, ?_, ?_⟩, by rw [hvv, if_pos rfl], ?_, ?_⟩
    · rw [fo.nKnownRows]
      intro p hp
      rw [hvv]
      split_ifs with h
      · omega
      · exact ht_f.validLe p hp
    · rw [fo.nKnownRows]
      intro p hp q hq hqp
      rw [hvv] at hq ⊢
      split_ifs at hq with h
      · subst h
        rw [if_neg (by omega), ht_v q (by omega)]
        exact hready q hq hqp
      · have hqi : q ≠ i := by
          rcases Nat.lt_or_ge p i with h2 | h2
          · omega
          · have := hup p hp (by omega)
            omega
        rw [if_neg hqi]
        exact ht_f.link p hp q hq hqp
    · rw [fo.nKnownRows]
      intro p hp q hq
      rw [hvv] at hq
      split_ifs at hq with h
      · subst h; exact a2 q hq
      · exact a1 p hp h q hq
    · intro k hk hk2
      rw [hvv, if_neg hk, ht_v k hk2]
    · intro k hk
      rw [(a3 k hk).1, (a3 k hk).2, ht_m.1, ht_m.2]
      exact ⟨rfl, rfl⟩

/-! ### changing one row -/

section
variable {F : Type} [FloatOps F]

theorem rowAddmulWe_keep (s : GSO F) (i j : ℕ) (x : F) :
    (s.rowAddmulWe i j x).mu = s.mu ∧ (s.rowAddmulWe i j x).r = s.r ∧ (s.rowAddmulWe i j x).gsoValidCols = s.gsoValidCols ∧ (s.rowAddmulWe i j x).nCols = s.nCols ∧
    (∀ k, k ≠ i → (s.rowAddmulWe i j x).b k = s.b k) := by
  unfold rowAddmulWe
  dsimp only
  split_ifs
  all_goals
    refine ⟨rfl, rfl, rfl, rfl, ?_⟩
    intro k hk
    first
      | rfl
      | (change setAt s.b i _ k = _
         unfold setAt
         rw [if_neg hk])

theorem rowOpEnd_keep {s : GSO F} (hG : s.intGram = true) {m : ℕ} (hm : m < s.nKnownRows) :
    (s.rowOpEnd m (m + 1)).mu = s.mu ∧ (s.rowOpEnd m (m + 1)).r = s.r ∧
    ∀ k < s.nKnownRows, (s.rowOpEnd m (m + 1)).gsoValidCols k = if k = m then 0 else if m < k then min (s.gsoValidCols k) m else s.gsoValidCols k := by
  have h1 : forUp m (m + 1) (fun i (s : GSO F) => s.rowOpEndBody i) s = s.rowOpEndBody m := by
    unfold forUp; rw [show m + 1 - m = 1 by omega]; rfl
  have h2 : s.rowOpEndBody m = s.invalidateGsoRow m 0 := by
    unfold rowOpEndBody
    rw [if_pos hG]
  unfold rowOpEnd
  dsimp only
  rw [h1, h2]
  have hk : (s.invalidateGsoRow m 0).nKnownRows = s.nKnownRows := rfl
  rw [hk]
  have := forUp_inv (P := fun e (v : GSO F) => v.mu = s.mu ∧ v.r = s.r ∧ ∀ k, v.gsoValidCols k = if k = m then 0 else if m < k ∧ k < e then min (s.gsoValidCols k) m else s.gsoValidCols k)
    (fun i (s : GSO F) => s.invalidateGsoRow i m) (by omega : m + 1 ≤ s.nKnownRows) (s.invalidateGsoRow m 0)
    ⟨rfl, rfl, by
      intro k
      change setAt s.gsoValidCols m (min (s.gsoValidCols m) 0) k = _
      unfold setAt
      grind⟩
    (by
      rintro e v h1 h2 ⟨c1, c2, c3⟩
      refine ⟨c1, c2, ?_⟩
      intro k
      change setAt v.gsoValidCols e (min (v.gsoValidCols e) m) k = _
      unfold setAt
      rw [c3, c3]
      grind)
  obtain ⟨c1, c2, c3⟩ := this
  refine ⟨c1, c2, fun k hk => ?_⟩
  rw [c3]
  grind

omit [FloatOps F] in
theorem invalidateFrom_keep (s : GSO F) (m k : ℕ) :
    (s.invalidateFrom m m).gsoValidCols k = if m ≤ k ∧ k < s.nKnownRows then min (s.gsoValidCols k) m else s.gsoValidCols k := by
  unfold invalidateFrom
  by_cases h : m ≤ s.nKnownRows
  · exact forUp_inv (P := fun i (w : GSO F) => ∀ k, w.gsoValidCols k = if m ≤ k ∧ k < i then min (s.gsoValidCols k) m else s.gsoValidCols k)
      (fun i (s : GSO F) => s.invalidateGsoRow i m) h s (by intro k; grind)
      (by
        intro i w h1 h2 hw k
        change setAt w.gsoValidCols i (min (w.gsoValidCols i) m) k = _
        unfold setAt
        rw [hw, hw]
        grind) k
  · rw [forUp_empty (by omega), if_neg (by omega)]

/-- what a pass of `babai` leaves alone -/
theorem babaiPass_keep {s : GSO F} (hs : WF s) (hG : s.intGram = true) {kappa start stop : ℕ} (hk : kappa < s.nKnownRows) (hsrc : stop ≤ s.nSourceRows) (hle : stop ≤ kappa) :
    (LLL.babaiPass s kappa start stop).mu = s.mu ∧ (LLL.babaiPass s kappa start stop).r = s.r ∧
    (∀ k, k ≠ kappa → (LLL.babaiPass s kappa start stop).b k = s.b k) ∧
    ∀ k < s.nKnownRows, (LLL.babaiPass s kappa start stop).gsoValidCols k = if k = kappa then 0 else if kappa < k then min (s.gsoValidCols k) kappa else s.gsoValidCols k := by
  unfold LLL.babaiPass
  dsimp only
  have h := forDown_inv' (fun p : GSO F × (ℕ → F) => Good s p.1 ∧ LLL.SameDims s p.1 ∧ p.1.mu = s.mu ∧ p.1.r = s.r ∧ p.1.gsoValidCols = s.gsoValidCols ∧ ∀ k, k ≠ kappa → p.1.b k = s.b k)
    (LLL.babaiStep kappa start) start stop (s, forUp start stop (fun j (bm : ℕ → F) => setAt bm j (s.mu kappa j)) (fun _ => nan)) ⟨.refl hs, .refl s, rfl, rfl, rfl, fun _ _ => rfl⟩
    (by
      rintro j ⟨t, bm⟩ h1 h2 ⟨g, dm, e1, e2, e3, e4⟩
      unfold LLL.babaiStep
      dsimp only at g dm e1 e2 e3 e4 ⊢
      split_ifs with hz
      · exact ⟨g, dm, e1, e2, e3, e4⟩
      · have hjs : j < t.nSourceRows := by rw [dm.source]; omega
        have hkt : kappa < t.nKnownRows := by rw [dm.known]; exact hk
        obtain ⟨q1, q2, q3, q4, q5⟩ := rowAddmulWe_keep t kappa j (neg (rnd (bm j)))
        exact ⟨g.trans (rowAddmulWe_good g.wf hkt hjs (by omega) _), dm.trans (LLL.rowAddmulWe_dims _ _ _ _), q1.trans e1, q2.trans e2, q3.trans e3, fun k hk => (q5 k hk).trans (e4 k hk)⟩)
  obtain ⟨g, dm, e1, e2, e3, e4⟩ := h
  generalize (forDown start stop (LLL.babaiStep kappa start) (s, forUp start stop (fun j (bm : ℕ → F) => setAt bm j (s.mu kappa j)) (fun _ => nan))).1 = t at *
  obtain ⟨r1, r2, r3⟩ := rowOpEnd_keep (s := t) (by rw [g.cfg.intGram]; exact hG) (m := kappa) (by rw [dm.known]; exact hk)
  have fo := rowOpEnd_fo t kappa (kappa + 1)
  refine ⟨r1.trans e1, r2.trans e2, fun k hk' => by rw [fo.b]; exact e4 k hk', fun k hk' => ?_⟩
  rw [r3 k (by rw [dm.known]; exact hk'), e3]

end

/-- freshness after a change of row `m` -/
theorem FreshR.change {s s' : GSO (Rd fl)} (hf : FreshR s) {m : ℕ} (e_G : s'.intGram = s.intGram) (e_k : s'.nKnownRows = s.nKnownRows) (e_n : s'.nCols = s.nCols) (e_mu : s'.mu = s.mu) (e_r : s'.r = s.r)
    (e_b : ∀ k, k ≠ m → s'.b k = s.b k) (e_v : ∀ k < s.nKnownRows, s'.gsoValidCols k = if k = m then 0 else if m < k then min (s.gsoValidCols k) m else s.gsoValidCols k) : FreshR s' := by
  refine ⟨by rw [e_G]; exact hf.int, ?_, ?_, ?_⟩
  · rw [e_k]
    intro i hi
    have := hf.validLe i hi
    rw [e_v i hi]
    split_ifs <;> omega
  · rw [e_k]
    intro i hi j hj hji
    have hl := hf.link i hi j
    rw [e_v i hi] at hj
    rw [e_v j (by omega)]
    split_ifs at hj with h1 h2
    · omega
    · rw [if_neg (by omega), if_neg (by omega)]
      exact hl (by omega) hji
    · rw [if_neg (by omega), if_neg (by omega)]
      exact hl hj hji
  · rw [e_k]
    intro i hi j hj
    have hv := hf.validLe i hi
    rw [e_v i hi] at hj
    have him : i ≠ m := by
      intro h; rw [if_pos h] at hj; omega
    have hjm : j ≠ m ∧ j < s.gsoValidCols i := by
      rw [if_neg him] at hj
      split_ifs at hj <;> omega
    exact (hf.entry i hi j hjm.2).congr id (by unfold ip; rw [e_b i him, e_b j hjm.1, e_n]) (fun k _ => by rw [e_r]) (fun k _ => by rw [e_mu]) (fun _ => by rw [e_r]) (fun _ => by rw [e_mu])

theorem moveRowUp_freshR {s : GSO (Rd fl)} (hf : FreshR s) {o n : ℕ} (hno : n < o) (ho : o < s.nKnownRows) : FreshR (s.moveRowUp o n) := by
  have hle : n ≤ o := hno.le
  have hb : (s.moveRowUp o n).b = fun k => s.b (rotR n o k) := rotateRight_eq _ hle
  have hm : (s.moveRowUp o n).mu = fun k => s.mu (rotR n o k) := rotateRight_eq _ hle
  have hr : (s.moveRowUp o n).r = fun k => s.r (rotR n o k) := rotateRight_eq _ hle
  have hk : (s.moveRowUp o n).nKnownRows = s.nKnownRows := rfl
  have hlow : ∀ k < n, rotR n o k = k := by intro k hk; unfold rotR; grind
  have hhigh : ∀ k, n ≤ k → n ≤ rotR n o k := by intro k hk; unfold rotR; grind
  have hlt : ∀ k < s.nKnownRows, rotR n o k < s.nKnownRows := fun k hk => (rotR_lt ho hle).2 hk
  have hv : ∀ k < s.nKnownRows, (s.moveRowUp o n).gsoValidCols k = if n ≤ k then min (s.gsoValidCols (rotR n o k)) n else s.gsoValidCols k := by
    intro k hk
    change rotateRightBySwap (s.invalidateFrom n n).gsoValidCols n o k = _
    rw [rotateRight_eq _ hle]; dsimp only; rw [invalidateFrom_keep]
    have := hlt k hk
    unfold rotR at *
    grind
  have hn : (s.moveRowUp o n).nCols = s.nCols := rfl
  have hG : (s.moveRowUp o n).intGram = s.intGram := rfl
  generalize s.moveRowUp o n = t at *
  have hjn : ∀ i < s.nKnownRows, ∀ j < t.gsoValidCols i, j < n ∧ j < s.gsoValidCols (rotR n o i) := by
    intro i hi j hj
    have := hf.validLe i hi
    rw [hv i hi] at hj
    split_ifs at hj with h
    · omega
    · rw [hlow i (by omega)]
      omega
  refine ⟨by rw [hG]; exact hf.int, ?_, ?_, ?_⟩
  · rw [hk]
    intro i hi
    have := hf.validLe i hi
    rw [hv i hi]
    split_ifs <;> omega
  · rw [hk]
    intro i hi j hj hji
    obtain ⟨h1, h2⟩ := hjn i hi j hj
    rw [hv j (by omega), if_neg (by omega)]
    refine hf.link _ (hlt i hi) j h2 ?_
    rcases Nat.lt_or_ge i n with h | h
    · rw [hlow i h]; exact hji
    · have := hhigh i h; omega
  · rw [hk]
    intro i hi j hj
    obtain ⟨h1, h2⟩ := hjn i hi j hj
    have hji : j < i → j < rotR n o i := by
      intro hji
      rcases Nat.lt_or_ge i n with h | h
      · rw [hlow i h]; exact hji
      · have := hhigh i h; omega
    have ej := hlow j h1
    refine (hf.entry _ (hlt i hi) j h2).congr hji ?_ ?_ ?_ ?_ ?_
    · unfold ip; rw [hb, hn]; dsimp only; rw [ej]
    · intro k _; rw [hr]
    · intro k _; rw [hm]; dsimp only; rw [ej]
    · intro _; rw [hr]; dsimp only; rw [ej]
    · intro _; rw [hm]

theorem setR_freshR {s : GSO (Rd fl)} (hf : FreshR s) {i : ℕ} (hi : i < s.nKnownRows) (hv : i ≤ s.gsoValidCols i) (hready : ∀ j < i, j + 1 ≤ s.gsoValidCols j) {f : Rd fl}
    (hfv : f = Rd.of (csum fl (s.ip i i) (fun k => Rd.val (s.mu i k)) (fun k => Rd.val (s.r i k)) i)) :
    FreshR (s.setR i i f) ∧ (∀ k, (s.setR i i f).gsoValidCols k = if k = i then i + 1 else s.gsoValidCols k) ∧ (∀ p q, (p ≠ i ∨ q ≠ i) → (s.setR i i f).r p q = s.r p q) := by
  have hvi := hf.validLe i hi
  have hval : ∀ k, (s.setR i i f).gsoValidCols k = if k = i then i + 1 else s.gsoValidCols k := by
    intro k
    change (if s.gsoValidCols i = i then setAt s.gsoValidCols i (i + 1) else s.gsoValidCols) k = _
    unfold setAt
    split_ifs <;> grind
  have hr : ∀ p q, (p ≠ i ∨ q ≠ i) → (s.setR i i f).r p q = s.r p q := by
    intro p q h
    change Mat.set s.r i i f p q = _
    rw [Mat.set_apply, if_neg (by tauto)]
  have hrii : (s.setR i i f).r i i = f := by
    change Mat.set s.r i i f i i = _
    rw [Mat.set_apply, if_pos ⟨rfl, rfl⟩]
  have hk : (s.setR i i f).nKnownRows = s.nKnownRows := rfl
  have hm : (s.setR i i f).mu = s.mu := rfl
  have hip : ∀ p q, (s.setR i i f).ip p q = s.ip p q := fun _ _ => rfl
  have hG : (s.setR i i f).intGram = s.intGram := rfl
  generalize s.setR i i f = t at *
  refine ⟨⟨by rw [hG]; exact hf.int, ?_, ?_, ?_⟩, hval, hr⟩
  · rw [hk]
    intro k hk
    have := hf.validLe k hk
    rw [hval]
    split_ifs <;> omega
  · rw [hk]
    intro p hp q hq hqp
    rw [hval] at hq ⊢
    have : p ≠ i → q + 1 ≤ s.gsoValidCols q := fun h => by
      rw [if_neg h] at hq
      exact hf.link p hp q hq hqp
    split_ifs with h1
    · omega
    · by_cases h : p = i
      · subst h; exact hready q hqp
      · exact this h
  · rw [hk]
    intro p hp q hq
    rw [hval] at hq
    by_cases h : p = i ∧ q = i
    · obtain ⟨h1, h2⟩ := h
      subst h1
      subst h2
      refine ⟨?_, fun h => absurd h (lt_irrefl _)⟩
      rw [hrii, hfv, hip, hm]
      congr 1
      exact csum_congr (fun _ _ => rfl) (fun k hk => by rw [hr _ _ (.inr (by omega))])
    · have hq' : q < s.gsoValidCols p := by
        split_ifs at hq with h1
        · subst h1; omega
        · exact hq
      have hold := hf.entry p hp q hq'
      -- if `r(i, i)` was valid before, it has not changed
      have same : i < s.gsoValidCols i → ∀ a c, t.r a c = s.r a c := by
        intro hlt a c
        by_cases e : a = i ∧ c = i
        · rw [e.1, e.2, hrii, hfv, (hf.entry i hi i hlt).1]
        · exact hr a c (by tauto)
      refine hold.congr id (hip _ _) ?_ (fun k _ => by rw [hm]) ?_ (fun _ => by rw [hm])
      · intro k hk
        by_cases e : p = i ∧ k = i
        · have := hf.validLe p hp
          refine same ?_ _ _
          rw [e.1] at hq'
          omega
        · exact hr _ _ (by tauto)
      · intro hqp
        by_cases e : q = i
        · refine same ?_ _ _
          have := hf.link p hp q hq' hqp
          rw [← e]; omega
        · exact hr _ _ (.inl e)

theorem mk0_freshR (d n : ℕ) (wu wi fo : Bool) (b u v jz : Mat ℤ) (jf : Mat (Rd fl)) (hn : 1 ≤ n) : FreshR (mk0 d n true wu wi fo b u v jz jf) := by
  obtain ⟨hwf, hb, hu, hv, hd, hc, hg, hwu, hwi, hk, hl⟩ := mk0_wf d n true wu wi fo b u v jz jf hn
  exact ⟨hg, by rw [hk]; intro i hi; omega, by rw [hk]; intro i hi; omega, by rw [hk]; intro i hi; omega⟩

end GSO

end Fplll
