import Verif.Spec.Dip
import Verif.Lemmas.Spread
import Mathlib.Topology.Order.IntermediateValue

/-! Lemmas for the distress insurance premium. -/
set_option linter.unusedSimpArgs false
namespace Frds
noncomputable section
open Model Spec Classical

theorem Φ_invCdf {p : ℝ} (h0 : 0 < p) (h1 : p < 1) : Φ (invCdf p) = p := by
  have h : ∃ x, Φ x = p := by
    obtain ⟨a, ha⟩ := ((Φ_tendsto_atBot.eventually_lt_const h0)).exists
    obtain ⟨b, hb⟩ := ((Φ_tendsto_atTop.eventually_const_lt h1)).exists
    exact mem_range_of_exists_le_of_exists_ge Φ_continuous ⟨a, ha.le⟩ ⟨b, hb.le⟩
  unfold invCdf
  rw [dif_pos h]
  exact h.choose_spec

theorem lt_invCdf {p z : ℝ} (h0 : 0 < p) (h1 : p < 1) : z < invCdf p ↔ Φ z < p := by
  rw [← Φ_strictMono.lt_iff_lt, Φ_invCdf h0 h1]

theorem mapM_threshold : ∀ {p : List ℝ}, (∀ q ∈ p, 0 < q ∧ q < 1) →
    (p.map XR.fin).mapM dipThreshold = .ok (p.map fun q => XR.fin (invCdf q)) := by
  intro p
  induction p with
  | nil => intro _; rfl
  | cons q p ih =>
    intro h
    have hq := h q List.mem_cons_self
    rw [List.map_cons, List.mapM_cons, ih (fun r hr => h r (List.mem_cons_of_mem _ hr))]
    simp only [dipThreshold]
    rw [if_neg (by push Not; exact hq)]
    rfl

theorem list_sum_range {M} [AddCommMonoid M] (f : ℕ → M) (m : ℕ) :
    ((List.range m).map f).sum = ∑ k ∈ Finset.range m, f k := rfl

theorem getD_of_lt {α} (l : List α) (b : ℕ) (x : α) (h : b < l.length) : l.getD b x = l[b] := by
  rw [List.getD_eq_getElem?_getD, List.getElem?_eq_getElem h]; rfl

theorem sum_Icc_one (n : ℕ) (f : ℕ → ℝ) : ∑ i ∈ Finset.Icc 1 n, f i = ∑ i ∈ Finset.range n, f (i + 1) := by
  induction n with
  | zero => simp
  | succ n ih => rw [Finset.sum_Icc_succ_top (by omega), ih, Finset.sum_range_succ]

theorem addAt_ok (l : List XR) {i : ℤ} (v : XR) (h0 : 0 ≤ i) (h1 : i < l.length) :
    addAt l i v = .ok (l.modify i.toNat (· + v)) := by
  have hk : (if i < 0 then i + (l.length : ℤ) else i) = i := if_neg (by omega)
  unfold addAt
  simp only [hk]
  rw [if_pos ⟨h0, h1⟩]

theorem addAt_err (l : List XR) {i : ℤ} (v : XR) (h0 : 0 ≤ i) (h1 : (l.length : ℤ) ≤ i) :
    addAt l i v = .error .indexError := by
  have hk : (if i < 0 then i + (l.length : ℤ) else i) = i := if_neg (by omega)
  unfold addAt
  simp only [hk]
  rw [if_neg (by omega)]

namespace Spec.DipSim
variable {S : DipSim}

theorem defaultCount_eq (hV : S.Valid) (s : ℕ) :
    defaultCount S.d S.L (S.p.map fun q => XR.fin (invCdf q)) s = S.defaults s := by
  unfold defaultCount defaults
  rw [List.length_map, Finset.card_def, Finset.filter_val]
  show _ = Multiset.card (Multiset.filter _ (List.range S.p.length : Multiset ℕ))
  rw [Multiset.filter_coe, Multiset.coe_card]
  congr 1
  apply List.filter_congr
  intro b hb
  rw [List.mem_range] at hb
  have hg : (S.p.map fun q => XR.fin (invCdf q)).getD b .nan = .fin (invCdf (S.p.getD b 0)) := by
    rw [getD_of_lt _ _ _ (by simpa using hb), List.getElem_map, getD_of_lt _ _ _ hb]
  have hm : S.p.getD b 0 ∈ S.p := by
    rw [getD_of_lt _ _ _ hb]; exact List.getElem_mem _
  have hq := hV.prob _ hm
  rw [hg, decide_eq_decide, XR.fin_lt, lt_invCdf hq.1 hq.2]
  rfl

theorem jointDefaults_eq (hV : S.Valid) (q : ℕ) :
    jointDefaults S.d S.L (S.p.map fun q => XR.fin (invCdf q)) S.nRet q = .fin (S.freq q) := by
  have hr : (S.nRet : ℝ) ≠ 0 := by exact_mod_cast hV.ret.ne'
  unfold jointDefaults freq
  rw [XR.fin_div _ hr]
  congr 3
  have : (List.range S.nRet).map (defaultCount S.d S.L (S.p.map fun q => XR.fin (invCdf q)))
      = (List.range S.nRet).map S.defaults := List.map_congr_left fun s _ => defaultCount_eq hV s
  rw [this, Finset.card_def, Finset.filter_val]
  show _ = Multiset.card (Multiset.filter _ (List.range S.nRet : Multiset ℕ))
  rw [Multiset.filter_coe, Multiset.coe_card, List.count, List.countP_map, List.countP_eq_length_filter]
  rfl

end Spec.DipSim

theorem lgdRows_eq (d : DipDraws) (n : ℕ) (junk : ℕ → ℕ → ℝ) {r : ℕ} (hr : r < n) (j : ℕ) :
    lgdRows d n junk r j = lgdSum d r j := by
  have key : ∀ m r j, lgdRows d m junk r j
      = if m = 0 then junk r j else if r < m then lgdSum d r j else lgdSum d (m - 1) j := by
    intro m
    induction m with
    | zero => intro r j; rfl
    | succ m ih =>
      intro r j
      unfold lgdRows at ih ⊢
      rw [List.range_succ, List.foldl_append]
      simp only [List.foldl_cons, List.foldl_nil]
      rw [ih]
      rw [if_neg (Nat.succ_ne_zero m)]
      by_cases h1 : m ≤ r
      · rw [if_pos h1]
        by_cases h2 : r < m + 1
        · rw [if_pos h2, show r = m by omega]
        · rw [if_neg h2]; rfl
      · rw [if_neg h1, if_neg (by omega), if_pos (by omega), if_pos (by omega)]
  rw [key, if_neg (by omega), if_pos hr]

/-- the accumulation loop on a grid of real numbers -/
theorem foldlM_addAt {ι : Type} (g : ι → ℤ) (v : ι → ℝ) (m : ℕ) : ∀ (is : List ι) (f : ℕ → ℝ),
    (∀ i ∈ is, 0 ≤ g i ∧ g i < m) →
    is.foldlM (fun acc i => addAt acc (g i) (.fin (v i))) ((List.range m).map fun k => XR.fin (f k))
      = .ok ((List.range m).map fun k => XR.fin (f k + (is.map fun i => if g i = k then v i else 0).sum)) := by
  intro is
  induction is with
  | nil => intro f _; simp [List.foldlM, pure, Except.pure]
  | cons i is ih =>
    intro f h
    have hi := h i List.mem_cons_self
    rw [List.foldlM_cons]
    have hadd : addAt ((List.range m).map fun k => XR.fin (f k)) (g i) (.fin (v i))
        = .ok ((List.range m).map fun k => XR.fin (f k + if g i = k then v i else 0)) := by
      rw [addAt_ok _ _ hi.1 (by simpa using hi.2)]
      congr 1
      apply List.ext_getElem
      · simp
      · intro k hk1 hk2
        simp only [List.length_modify, List.length_map, List.length_range] at hk1
        rw [List.getElem_modify, List.getElem_map, List.getElem_map, List.getElem_range]
        by_cases hk : (g i).toNat = k
        · rw [if_pos hk, if_pos (by omega)]; rfl
        · rw [if_neg hk, if_neg (by omega), add_zero]
    rw [hadd]
    simp only [bind, Except.bind]
    have := ih (fun k => f k + if g i = k then v i else 0) (fun j hj => h j (List.mem_cons_of_mem _ hj))
    rw [this]
    congr 1
    apply List.map_congr_left
    intro k _
    rw [List.map_cons, List.sum_cons, add_assoc]

/-- an index past the end stops the loop with `IndexError` -/
theorem foldlM_addAt_error {ι : Type} (g : ι → ℤ) (v : ι → XR) : ∀ (is : List ι) (l : List XR),
    (∀ i ∈ is, 0 ≤ g i) → (∃ i ∈ is, (l.length : ℤ) ≤ g i) →
    is.foldlM (fun acc i => addAt acc (g i) (v i)) l = .error .indexError := by
  intro is
  induction is with
  | nil => rintro l _ ⟨i, h, -⟩; cases h
  | cons i is ih =>
    rintro l h0 ⟨j, hj, hl⟩
    rw [List.foldlM_cons]
    have hi := h0 i List.mem_cons_self
    by_cases hb : g i < l.length
    · rw [addAt_ok _ _ hi hb]
      simp only [bind, Except.bind]
      apply ih _ (fun k hk => h0 k (List.mem_cons_of_mem _ hk))
      rcases List.mem_cons.1 hj with rfl | hj
      · omega
      · exact ⟨j, hj, by rw [List.length_modify]; exact hl⟩
    · rw [addAt_err _ _ hi (by omega)]; rfl

theorem mem_loopPairs {n m : ℕ} {q : ℕ × ℕ} : q ∈ loopPairs n m ↔ q.1 < n ∧ q.2 < m := by
  unfold loopPairs
  simp only [List.mem_flatMap, List.mem_range, List.mem_map]
  constructor
  · rintro ⟨i, hi, j, hj, rfl⟩; exact ⟨hi, hj⟩
  · rintro ⟨h1, h2⟩; exact ⟨q.1, h1, q.2, h2, rfl⟩

theorem sum_loopPairs (n m : ℕ) (f : ℕ × ℕ → ℝ) :
    ((loopPairs n m).map f).sum = ∑ i ∈ Finset.range n, ∑ j ∈ Finset.range m, f (i, j) := by
  unfold loopPairs
  rw [List.map_flatMap, List.flatMap, List.sum_flatten, List.map_map, ← list_sum_range]
  congr 1
  apply List.map_congr_left
  intro i _
  simp only [Function.comp, List.map_map]
  rfl

namespace Spec.DipSim
variable {S : DipSim}

theorem loss_eq (i j : ℕ) : lgdSum S.d i j = S.loss (i + 1) j := rfl

theorem loss_nonneg (hV : S.Valid) (i j : ℕ) : 0 ≤ S.loss i j :=
  Finset.sum_nonneg fun r _ => by have := (hV.draws (i - 1) r j).1; linarith

theorem loss_le (hV : S.Valid) (i j : ℕ) : S.loss i j ≤ i := by
  have := Finset.sum_le_card_nsmul (Finset.range i) (fun r => S.d.tri (i - 1) r j) 1
    (fun r _ => (hV.draws (i - 1) r j).2)
  simpa [loss] using this

theorem loss_ge (hV : S.Valid) (i j : ℕ) : (i : ℝ) / 10 ≤ S.loss i j := by
  have := Finset.card_nsmul_le_sum (Finset.range i) (fun r => S.d.tri (i - 1) r j) (1 / 10)
    (fun r _ => (hV.draws (i - 1) r j).1)
  rw [Finset.card_range, nsmul_eq_mul] at this
  unfold loss; linarith

/-- the slot of a simulated loss -/
def slot (S : DipSim) (i j : ℕ) : ℤ := ⌈100 * S.loss i j⌉

theorem slot_nonneg (hV : S.Valid) (i j : ℕ) : 0 ≤ S.slot i j :=
  Int.ceil_nonneg (by have := loss_nonneg hV i j; linarith)

theorem slot_lt (hV : S.Valid) (hF : S.Fits) {i j : ℕ} (hi : i ≤ S.n) (hj : j < S.nSim) :
    S.slot i j < 100 * S.n := by
  rcases Nat.lt_or_ge i S.n with h | h
  · have h1 : S.slot i j ≤ 100 * i := Int.ceil_le.2 (by
      have := loss_le hV i j; push_cast; linarith)
    omega
  · have : i = S.n := le_antisymm hi h
    subst this
    have h1 : S.slot S.n j ≤ 100 * S.n - 1 := Int.ceil_le.2 (by
      have := hF j hj; push_cast; linarith)
    omega

theorem fill_eq (hV : S.Valid) (hF : S.Fits) (junk : ℕ → ℕ → ℝ) :
    (fillLosses S.n S.nSim (fun q => .fin (S.freq q)) (lgdRows S.d S.n junk))
      = .ok ((List.range (100 * S.n)).map fun k : ℕ => XR.fin (S.nSim * S.slotProb k)) := by
  have hs : (S.nSim : ℝ) ≠ 0 := by exact_mod_cast hV.sim.ne'
  unfold fillLosses
  have hrep : List.replicate (S.n * 100) (0 : XR) = (List.range (100 * S.n)).map fun _ => XR.fin 0 := by
    rw [List.map_const', List.length_range, mul_comm]; rfl
  have hg : ∀ q ∈ loopPairs S.n S.nSim, ⌈lgdRows S.d S.n junk q.1 q.2 * 100⌉ = S.slot (q.1 + 1) q.2 := by
    intro q hq
    rw [mem_loopPairs] at hq
    rw [lgdRows_eq _ _ _ hq.1, loss_eq, mul_comm]; rfl
  rw [hrep, foldlM_addAt (fun q : ℕ × ℕ => ⌈lgdRows S.d S.n junk q.1 q.2 * 100⌉)
    (fun q => S.freq (q.1 + 1)) (100 * S.n)]
  · congr 1
    apply List.map_congr_left
    intro k _
    congr 1
    rw [zero_add]
    have : (loopPairs S.n S.nSim).map (fun q : ℕ × ℕ =>
        if ⌈lgdRows S.d S.n junk q.1 q.2 * 100⌉ = (k : ℤ) then S.freq (q.1 + 1) else 0)
      = (loopPairs S.n S.nSim).map (fun q : ℕ × ℕ => if S.slot (q.1 + 1) q.2 = (k : ℤ) then S.freq (q.1 + 1) else 0) :=
      List.map_congr_left fun q hq => by rw [hg q hq]
    rw [this, sum_loopPairs, slotProb, ← mul_assoc, mul_one_div_cancel hs, one_mul]
    rw [sum_Icc_one]
    apply Finset.sum_congr rfl
    intro i _
    rw [← Finset.sum_filter]
    dsimp only
    rw [Finset.sum_const, nsmul_eq_mul, mul_comm]
    rfl
  · intro q hq
    have h := hg q hq
    rw [mem_loopPairs] at hq
    rw [h]
    push_cast
    exact ⟨slot_nonneg hV _ _, slot_lt hV hF (by omega) hq.2⟩

theorem fill_error (hV : S.Valid) (hF : ¬ S.Fits) (junk : ℕ → ℕ → ℝ) (hn : 0 < S.n) (dist : ℕ → XR) :
    fillLosses S.n S.nSim dist (lgdRows S.d S.n junk) = .error .indexError := by
  unfold Fits at hF
  push Not at hF
  obtain ⟨j, hj, hl⟩ := hF
  unfold fillLosses
  have hg : ∀ q ∈ loopPairs S.n S.nSim, ⌈lgdRows S.d S.n junk q.1 q.2 * 100⌉ = S.slot (q.1 + 1) q.2 := by
    intro q hq
    rw [mem_loopPairs] at hq
    rw [lgdRows_eq _ _ _ hq.1, loss_eq, mul_comm]; rfl
  apply foldlM_addAt_error (fun q : ℕ × ℕ => ⌈lgdRows S.d S.n junk q.1 q.2 * 100⌉)
  · intro q hq
    rw [hg q hq]; exact slot_nonneg hV _ _
  · have hm : (S.n - 1, j) ∈ loopPairs S.n S.nSim := mem_loopPairs.2 ⟨by simp; omega, hj⟩
    refine ⟨_, hm, ?_⟩
    rw [hg _ hm, List.length_replicate]
    show _ ≤ S.slot (S.n - 1 + 1) j
    rw [show S.n - 1 + 1 = S.n by omega]
    have : (100 * S.n - 1 : ℤ) < S.slot S.n j := Int.lt_ceil.2 (by push_cast; linarith)
    push_cast
    linarith

theorem drop_map_range {α} (P : ℕ → α) (m a : ℕ) :
    ((List.range m).map P).drop a = (List.range (m - a)).map fun k => P (a + k) := by
  apply List.ext_getElem
  · simp
  · intro k h1 h2
    simp

/-- the part of `estimate` before the threshold is used -/
theorem dip_head {chol : CholRoutine} {rng : DipRng} {corr : ℕ → ℕ → XR} {seed : ℕ} (hV : S.Valid)
    (hR : S.Run chol rng corr seed) (junk : ℕ → ℕ → ℝ) (thr : XR) :
    dipEstimate chol rng junk (S.input corr) thr seed S.nRet S.nSim = (do
      let raw ← fillLosses S.n S.nSim (fun q => .fin (S.freq q)) (lgdRows S.d S.n junk)
      let prob := raw.map (· / .fin (S.nSim : ℝ))
      let pct ← pyInt (thr * 100)
      let tail := pySliceFrom prob (pct * S.n)
      let great := tail.sum
      let dot ← npDot (npRange (pct * S.n) (100 * S.n)) tail
      let expLosses := dot / (100 * great)
      return expLosses * great) := by
  have hn : (S.input corr).p.length = S.n := by simp [input, n]
  unfold dipEstimate
  simp only [hn]
  rw [show (S.input corr).p = S.p.map XR.fin from rfl, mapM_threshold hV.prob]
  simp only [bind, Except.bind]
  rw [show (S.input corr).corr = corr from rfl, hR.1, hR.2]
  dsimp only
  have : jointDefaults S.d S.L (S.p.map fun q => XR.fin (invCdf q)) S.nRet = fun q => .fin (S.freq q) :=
    funext fun q => jointDefaults_eq hV q
  rw [this]

theorem dip_eval {chol : CholRoutine} {rng : DipRng} {corr : ℕ → ℕ → XR} {seed : ℕ} (hV : S.Valid)
    (hR : S.Run chol rng corr seed) (hF : S.Fits) (junk : ℕ → ℕ → ℝ) {thr : XR} {c : ℕ}
    (hc : pyInt (thr * 100) = .ok (c : ℤ)) :
    dipEstimate chol rng junk (S.input corr) thr seed S.nRet S.nSim
      = .ok (.fin (100 * S.tailLoss (c * S.n)) / (100 * .fin (S.tailProb (c * S.n)))
          * .fin (S.tailProb (c * S.n))) := by
  have hs : (S.nSim : ℝ) ≠ 0 := by exact_mod_cast hV.sim.ne'
  rw [dip_head hV hR, fill_eq hV hF]
  simp only [bind, Except.bind]
  rw [hc]
  dsimp only
  have htail : pySliceFrom (List.map (· / XR.fin (S.nSim : ℝ))
      ((List.range (100 * S.n)).map fun k : ℕ => XR.fin (S.nSim * S.slotProb k))) ((c : ℤ) * (S.n : ℤ))
      = (List.range (100 * S.n - c * S.n)).map fun k : ℕ => XR.fin (S.slotProb ((c * S.n + k : ℕ) : ℤ)) := by
    unfold pySliceFrom
    have h0 : ¬ ((c : ℤ) * (S.n : ℤ) < 0) := not_lt.2 (by positivity)
    rw [if_neg h0, List.map_map]
    rw [show ((c : ℤ) * (S.n : ℤ)).toNat = c * S.n by
      rw [← Nat.cast_mul]; exact Int.toNat_natCast _]
    rw [drop_map_range]
    apply List.map_congr_left
    intro k _
    simp only [Function.comp]
    rw [XR.fin_div _ hs, mul_div_cancel_left₀ _ hs]
  rw [htail]
  have hrange : npRange ((c : ℤ) * (S.n : ℤ)) (100 * (S.n : ℤ))
      = (List.range (100 * S.n - c * S.n)).map fun k : ℕ => XR.fin (((c * S.n + k : ℕ) : ℝ)) := by
    unfold npRange
    rw [show (100 * (S.n : ℤ) - (c : ℤ) * (S.n : ℤ)).toNat = 100 * S.n - c * S.n by
      have e1 : 100 * (S.n : ℤ) = ((100 * S.n : ℕ) : ℤ) := by push_cast; rfl
      have e2 : (c : ℤ) * (S.n : ℤ) = ((c * S.n : ℕ) : ℤ) := by push_cast; rfl
      rw [e1, e2]; omega]
    apply List.map_congr_left
    intro k _
    push_cast; rfl
  have hgreat : ((List.range (100 * S.n - c * S.n)).map
      fun k : ℕ => XR.fin (S.slotProb ((c * S.n + k : ℕ) : ℤ))).sum = .fin (S.tailProb (c * S.n)) := by
    rw [XR.sum_fin, list_sum_range, tailProb, Finset.sum_Ico_eq_sum_range]
  have hdot : npDot (npRange ((c : ℤ) * (S.n : ℤ)) (100 * (S.n : ℤ)))
      ((List.range (100 * S.n - c * S.n)).map fun k : ℕ => XR.fin (S.slotProb ((c * S.n + k : ℕ) : ℤ)))
      = .ok (.fin (100 * S.tailLoss (c * S.n))) := by
    unfold npDot
    rw [hrange, if_pos (by simp)]
    congr 1
    rw [zipWith_maps]
    simp only [XR.fin_mul]
    rw [XR.sum_fin, list_sum_range, tailLoss, Finset.sum_Ico_eq_sum_range, Finset.mul_sum]
    congr 1
    apply Finset.sum_congr rfl
    intro k _
    push_cast; ring
  rw [hdot, hgreat]
  rfl

/-- sums over the grid are sums over the simulations -/
theorem slot_sum (hV : S.Valid) (hF : S.Fits) (h : ℕ → ℝ) :
    ∑ k ∈ Finset.range (100 * S.n), h k * S.slotProb k
      = 1 / S.nSim * ∑ i ∈ Finset.Icc 1 S.n, S.freq i * ∑ j ∈ Finset.range S.nSim, h (S.slot i j).toNat := by
  simp only [slotProb]
  rw [show ∑ k ∈ Finset.range (100 * S.n), h k * (1 / (S.nSim : ℝ) * ∑ i ∈ Finset.Icc 1 S.n,
      S.freq i * ((Finset.range S.nSim).filter fun j => ⌈100 * S.loss i j⌉ = (k : ℤ)).card)
    = 1 / S.nSim * ∑ k ∈ Finset.range (100 * S.n), ∑ i ∈ Finset.Icc 1 S.n,
      S.freq i * (h k * ((Finset.range S.nSim).filter fun j => ⌈100 * S.loss i j⌉ = (k : ℤ)).card) from by
    rw [Finset.mul_sum]
    apply Finset.sum_congr rfl
    intro k _
    rw [Finset.mul_sum, Finset.mul_sum, Finset.mul_sum]
    apply Finset.sum_congr rfl
    intro i _
    ring]
  congr 1
  rw [Finset.sum_comm]
  apply Finset.sum_congr rfl
  intro i hi
  rw [Finset.mem_Icc] at hi
  rw [← Finset.mul_sum]
  congr 1
  rw [← Finset.sum_fiberwise_of_maps_to (s := Finset.range S.nSim) (t := Finset.range (100 * S.n))
    (g := fun j => (S.slot i j).toNat)]
  · apply Finset.sum_congr rfl
    intro k _
    rw [Finset.sum_congr rfl (g := fun _ => h k) (fun j hj => by rw [(Finset.mem_filter.1 hj).2]),
      Finset.sum_const, nsmul_eq_mul, mul_comm]
    congr 3
    apply Finset.filter_congr
    intro j hj
    have h0 := slot_nonneg hV i j
    unfold slot at h0 ⊢
    omega
  · intro j hj
    rw [Finset.mem_range] at hj ⊢
    have h0 := slot_nonneg hV i j
    have h1 := slot_lt hV hF hi.2 hj
    omega

theorem freq_nonneg (q : ℕ) : 0 ≤ S.freq q := by unfold freq; positivity

theorem slotProb_nonneg (k : ℤ) : 0 ≤ S.slotProb k := by
  unfold slotProb
  exact mul_nonneg (by positivity) (Finset.sum_nonneg fun i _ => mul_nonneg (freq_nonneg i) (by positivity))

theorem defaults_le (s : ℕ) : S.defaults s ≤ S.n := by
  unfold defaults
  exact (Finset.card_filter_le _ _).trans (by rw [Finset.card_range])

theorem freq_sum (hV : S.Valid) : ∑ q ∈ Finset.range (S.n + 1), S.freq q = 1 := by
  have hr : (S.nRet : ℝ) ≠ 0 := by exact_mod_cast hV.ret.ne'
  simp only [freq]
  rw [← Finset.sum_div, div_eq_one_iff_eq hr]
  have := Finset.card_eq_sum_card_fiberwise (f := S.defaults) (s := Finset.range S.nRet)
    (t := Finset.range (S.n + 1)) (fun s _ => by
      have := defaults_le (S := S) s
      simp; omega)
  rw [Finset.card_range] at this
  have h2 := congrArg (Nat.cast : ℕ → ℝ) this
  push_cast at h2
  exact h2.symm

theorem freq_sum_Icc (hV : S.Valid) : ∑ i ∈ Finset.Icc 1 S.n, S.freq i = 1 - S.freq 0 := by
  have h := freq_sum hV
  rw [Finset.sum_range_succ'] at h
  rw [sum_Icc_one]
  linarith

theorem tailProb_zero (hV : S.Valid) (hF : S.Fits) : S.tailProb 0 = 1 - S.freq 0 := by
  have hs : (S.nSim : ℝ) ≠ 0 := by exact_mod_cast hV.sim.ne'
  have h := slot_sum hV hF (fun _ => 1)
  simp only [one_mul, Finset.sum_const, Finset.card_range, nsmul_eq_mul, mul_one] at h
  unfold tailProb
  rw [← Finset.range_eq_Ico, h, ← Finset.sum_mul, freq_sum_Icc hV]
  field_simp

theorem tailProb_anti {a b : ℕ} (h : a ≤ b) : S.tailProb b ≤ S.tailProb a := by
  unfold tailProb
  exact Finset.sum_le_sum_of_subset_of_nonneg (Finset.Ico_subset_Ico_left h) fun k _ _ => slotProb_nonneg _

theorem tailLoss_anti {a b : ℕ} (h : a ≤ b) : S.tailLoss b ≤ S.tailLoss a := by
  unfold tailLoss
  exact Finset.sum_le_sum_of_subset_of_nonneg (Finset.Ico_subset_Ico_left h)
    fun k _ _ => mul_nonneg (by positivity) (slotProb_nonneg _)

theorem tailProb_nonneg (a : ℕ) : 0 ≤ S.tailProb a := Finset.sum_nonneg fun _ _ => slotProb_nonneg _
theorem tailLoss_nonneg (a : ℕ) : 0 ≤ S.tailLoss a :=
  Finset.sum_nonneg fun _ _ => mul_nonneg (by positivity) (slotProb_nonneg _)

theorem tailLoss_le (a : ℕ) : S.tailLoss a ≤ S.n * S.tailProb a := by
  unfold tailLoss tailProb
  rw [Finset.mul_sum]
  apply Finset.sum_le_sum
  intro k hk
  have : (k : ℝ) ≤ 100 * S.n := by
    have := (Finset.mem_Ico.1 hk).2
    exact_mod_cast this.le
  exact mul_le_mul_of_nonneg_right (by linarith) (slotProb_nonneg _)

end Spec.DipSim
end
end Frds
