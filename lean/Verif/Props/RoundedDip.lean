import Verif.Lemmas.RoundedDip
import Verif.Lemmas.Eval64
import Verif.Props.RoundedError
import Verif.Props.Rounded

/-! C195: the distress insurance premium in floating point. -/
set_option linter.unusedSimpArgs false
namespace Frds.Props
noncomputable section
open Frds Frds.Model Classical

namespace RoundedDip
open Frds.RoundedDip

theorem loop_length (n m : ℕ) : (loopPairs n m).length = n * m := by
  unfold loopPairs
  rw [List.length_flatMap]
  simp

/-- number of scenarios and simulations that put weight on slot `k` -/
def weight (D : Rounded.DipData) (slot : ℕ → ℕ → ℕ) (k : ℕ) : ℕ :=
  (((loopPairs D.n D.nSim).filter fun ij => slot ij.1 ij.2 = k).map fun ij => D.counts.count (ij.1 + 1)).sum

variable {M : Machine} {D : Rounded.DipData} {slot : ℕ → ℕ → ℕ} {u tiny huge : ℝ}

/-- the sizes of a simulation -/
structure Size (D : Rounded.DipData) : Prop where
  n : 0 < D.n
  n_le : D.n ≤ 2 ^ 10
  sim : 0 < D.nSim
  sim_le : D.nSim ≤ 2 ^ 20
  ret : 0 < D.counts.length
  ret_le : D.counts.length ≤ 2 ^ 30

/-- the slot of every simulated loss, computed with the machine's arithmetic, is on the grid -/
def Slots (M : Machine) (D : Rounded.DipData) (slot : ℕ → ℕ → ℕ) : Prop :=
  ∀ i < D.n, ∀ j < D.nSim, (∃ y : ℝ, M.R.mul (Rounded.dipSum M D i j) 100 = .fin y ∧ ⌈y⌉ = slot i j) ∧ slot i j < D.n * 100

/-- what the proofs use about the arithmetic -/
structure Env (M : Machine) (u tiny huge : ℝ) : Prop where
  A : Accurate M.R u tiny huge
  prec : M.R.prec = 53
  small : 2 * tiny * 2 ^ 200 ≤ 1
  large : 4 * 2 ^ 200 ≤ huge
  u1 : u ≤ 1 / 2 ^ 53

theorem env64 (hM : M.R = binary64.rounding) : ∃ tiny huge, Env M (2 ^ (-53 : ℤ)) tiny huge := by
  obtain ⟨tiny, huge, A, h1, h2, h3⟩ := Rounded.acc64 hM
  have ht := A.tiny_nonneg
  refine ⟨tiny, huge, A, by rw [hM]; rfl, ?_, ?_, by norm_num⟩
  · have a : (2 : ℝ) ^ (200 : ℕ) ≤ 2 ^ (1000 : ℤ) := by
      rw [← zpow_natCast]; exact zpow_le_zpow_right₀ (by norm_num) (by norm_num)
    have b : (2 : ℝ) ^ (-20 : ℤ) ≤ 1 := zpow_le_one_of_nonpos₀ (by norm_num) (by norm_num)
    calc 2 * tiny * 2 ^ 200 ≤ 2 * tiny * 2 ^ (1000 : ℤ) := mul_le_mul_of_nonneg_left a (by linarith)
      _ ≤ 1 := h1.trans b
  · have a : (2 : ℝ) ^ (200 : ℕ) ≤ 2 ^ (1000 : ℤ) := by
      rw [← zpow_natCast]; exact zpow_le_zpow_right₀ (by norm_num) (by norm_num)
    have b : (4 : ℝ) ≤ 2 ^ (20 : ℤ) := by norm_num
    calc (4 : ℝ) * 2 ^ 200 ≤ 2 ^ (20 : ℤ) * 2 ^ (1000 : ℤ) := by
          apply mul_le_mul b a (by positivity) (by positivity)
      _ ≤ huge := h2

theorem Env.nat (E : Env M u tiny huge) {n : ℕ} (h : n ≤ 2 ^ 53) : M.R.rd n = .fin n := M.R.nat n (by rw [E.prec]; exact h)

theorem Env.lt_one (E : Env M u tiny huge) : u < 1 := E.u1.trans_lt (by norm_num)

theorem Env.range (E : Env M u tiny huge) {a b : ℕ} (hb : 0 < b) (ha : a ≤ 2 ^ 200) (hb' : b ≤ 2 ^ 200) :
    InRange tiny huge ((a : ℝ) / b) :=
  inRange_ratio E.small (by have := E.large; have : (0 : ℝ) < 2 ^ 200 := by positivity
                            linarith) hb ha hb' E.A.tiny_nonneg

theorem Env.k (E : Env M u tiny huge) {k : ℕ} (h : k ≤ 2 ^ 50) : 2 * ((k : ℝ) * u) ≤ 1 := by
  have : (k : ℝ) ≤ 2 ^ 50 := by exact_mod_cast h
  have h1 := E.u1
  have h0 := E.A.u_nonneg
  calc 2 * ((k : ℝ) * u) ≤ 2 * (2 ^ 50 * (1 / 2 ^ 53)) := by gcongr
    _ ≤ 1 := by norm_num

/-- the frequencies -/
theorem joint_close (E : Env M u tiny huge) (hs : Size D) (i : ℕ) :
    ∃ y, Rounded.dipJoint M D i = .fin y ∧ M.R.rd y = .fin y ∧ Close u 1 ((D.counts.count i : ℝ) / D.counts.length) y := by
  have hc : D.counts.count i ≤ D.counts.length := List.count_le_length
  have hr := hs.ret
  have hr2 := hs.ret_le
  unfold Rounded.dipJoint
  rw [show M.R.round (.fin (D.counts.count i : ℝ)) = .fin (D.counts.count i : ℝ) from E.nat (by omega),
    show M.R.round (.fin (D.counts.length : ℝ)) = .fin (D.counts.length : ℝ) from E.nat (by omega)]
  exact E.A.div E.lt_one (E.k (by norm_num)) (Close.refl (by positivity)) (Close.refl (by positivity)) (by exact_mod_cast hr)
    (E.range hr (by omega) (by omega))

theorem weight_le (hs : Size D) (k : ℕ) : weight D slot k ≤ 2 ^ 60 := by
  unfold weight
  have h1 : ∀ l : List (ℕ × ℕ), (l.map fun ij => D.counts.count (ij.1 + 1)).sum ≤ l.length * D.counts.length := by
    intro l
    induction l with
    | nil => simp
    | cons a l ih =>
      rw [List.map_cons, List.sum_cons, List.length_cons]
      have : D.counts.count (a.1 + 1) ≤ D.counts.length := List.count_le_length
      nlinarith
  refine (h1 _).trans ?_
  have h2 := List.length_filter_le (fun ij : ℕ × ℕ => decide (slot ij.1 ij.2 = k)) (loopPairs D.n D.nSim)
  rw [loop_length] at h2
  have a := hs.n_le
  have b := hs.sim_le
  have c := hs.ret_le
  calc _ ≤ D.n * D.nSim * D.counts.length := Nat.mul_le_mul_right _ h2
    _ ≤ 2 ^ 10 * 2 ^ 20 * 2 ^ 30 := Nat.mul_le_mul (Nat.mul_le_mul a b) c
    _ = 2 ^ 60 := by norm_num

/-- the array of probabilities after line 79 -/
theorem prob_close (E : Env M u tiny huge) (hs : Size D) (hslot : Slots M D slot) (junk : ℕ → ℕ → XR) :
    ∃ raw, Rounded.dipFill M D (Rounded.dipRows M D junk) = .ok raw ∧ raw.length = D.n * 100 ∧
      ∀ k (h : k < raw.length), ∃ y, M.R.div raw[k] (M.R.round (.fin D.nSim)) = .fin y ∧ M.R.rd y = .fin y ∧
        Close u (D.n * D.nSim + 2) ((weight D slot k : ℝ) / (D.counts.length * D.nSim : ℕ)) y := by
  have hn := hs.n
  have hn2 := hs.n_le
  have hm := hs.sim
  have hm2 := hs.sim_le
  have hr := hs.ret
  have hr2 := hs.ret_le
  have hP : D.n * D.nSim ≤ 2 ^ 30 := by calc _ ≤ 2 ^ 10 * 2 ^ 20 := Nat.mul_le_mul hn2 hm2
                                         _ = 2 ^ 30 := by norm_num
  obtain ⟨out, h1, h2, h3⟩ := fill_sum M (Rounded.dipRows M D junk) slot (Rounded.dipJoint M D) (D.n * 100)
    (loopPairs D.n D.nSim) (List.replicate (D.n * 100) 0) (fun _ => [0]) (by simp)
    (by
      intro k h
      rw [List.getElem_replicate]
      exact .single _)
    (by
      intro ij hij
      obtain ⟨hi, hj⟩ := mem_loopPairs.mp hij
      obtain ⟨⟨y, hy, hc⟩, hlt⟩ := hslot _ hi _ hj
      rw [rows_eq M D junk hi, hy]
      exact ⟨by rw [← hc]; rfl, hlt⟩)
  refine ⟨out, h1, h2, fun k hk => ?_⟩
  have hsum := h3 k hk
  set l := (loopPairs D.n D.nSim).filter fun ij => slot ij.1 ij.2 = k with hl
  have hll : l.length ≤ D.n * D.nSim := by
    rw [← loop_length, hl]
    exact List.length_filter_le _ _
  have hF : List.Forall₂ (fun v r => ∃ y, v = .fin y ∧ M.R.rd y = .fin y ∧ Close u 1 r y)
      ([0] ++ into slot (Rounded.dipJoint M D) (loopPairs D.n D.nSim) k)
      ((0 : ℝ) :: l.map fun ij => (D.counts.count (ij.1 + 1) : ℝ) / D.counts.length) := by
    refine List.Forall₂.cons ⟨0, rfl, Rounding.rd_zero, ⟨le_rfl, by simp, by simp⟩⟩ ?_
    show List.Forall₂ _ (into _ _ _ _) _
    unfold into
    rw [← hl, List.forall₂_map_left_iff, List.forall₂_map_right_iff]
    exact List.forall₂_same.mpr fun ij _ => joint_close E hs _
  have hx : ((0 : ℝ) :: l.map fun ij => (D.counts.count (ij.1 + 1) : ℝ) / D.counts.length).sum
      = (weight D slot k : ℝ) / D.counts.length := by
    rw [List.sum_cons, zero_add]
    unfold weight
    rw [← hl]
    clear_value l
    clear hF hll hsum hl
    induction l with
    | nil => simp
    | cons a l ih =>
      rw [List.map_cons, List.sum_cons, ih, List.map_cons, List.sum_cons]
      push_cast
      ring
  have hw := weight_le (slot := slot) hs k
  have hw' : (weight D slot k : ℝ) ≤ 2 ^ 60 := by exact_mod_cast hw
  have hr1 : (1 : ℝ) ≤ D.counts.length := by exact_mod_cast hr
  have hle : (weight D slot k : ℝ) / D.counts.length ≤ 2 ^ 60 := (div_le_self (by positivity) hr1).trans hw'
  have hlen : ([0] ++ into slot (Rounded.dipJoint M D) (loopPairs D.n D.nSim) k).length = l.length + 1 := by
    unfold into
    rw [← hl]
    simp [add_comm]
  obtain ⟨t, ht, hrt, hct⟩ := E.A.sum_close E.lt_one hsum _ hF
    (E.k (by rw [hlen]; omega))
    (by
      rw [hx]
      have := E.large
      norm_num at this hle ⊢
      linarith)
  rw [hx, hlen] at hct
  have hct' : Close u (D.n * D.nSim + 1) ((weight D slot k : ℝ) / D.counts.length) t :=
    hct.mono E.A.u_nonneg E.lt_one (by omega)
  rw [show out[k] = .fin t from ht, show M.R.round (.fin (D.nSim : ℝ)) = .fin (D.nSim : ℝ) from E.nat (by omega)]
  have e : (weight D slot k : ℝ) / D.counts.length / D.nSim = (weight D slot k : ℝ) / (D.counts.length * D.nSim : ℕ) := by
    push_cast
    rw [div_div]
  obtain ⟨s, a, b, c⟩ := E.A.div E.lt_one (E.k (by omega)) hct' (Close.refl (show (0 : ℝ) ≤ D.nSim by positivity))
    (by exact_mod_cast hm)
    (by
      rw [e]
      refine E.range (Nat.mul_pos hr hm) (hw.trans (by norm_num)) ?_
      calc D.counts.length * D.nSim ≤ 2 ^ 30 * 2 ^ 20 := Nat.mul_le_mul hr2 hm2
        _ ≤ 2 ^ 200 := by norm_num)
  rw [e] at c
  exact ⟨s, a, b, c⟩

theorem drop_forall {α β : Type} {R : α → β → Prop} {l : List α} {g : ℕ → β} (h : ∀ k (hk : k < l.length), R l[k] (g k)) (a : ℕ) :
    List.Forall₂ R (l.drop a) ((List.range' a (l.length - a)).map g) := by
  rw [List.forall₂_iff_get]
  refine ⟨by simp, fun i h1 h2 => ?_⟩
  have h1' : i < l.length - a := by simpa using h1
  simp only [List.get_eq_getElem, List.getElem_drop, List.getElem_map, List.getElem_range', one_mul]
  exact h _ (by omega)

/-- the weight of the slots from `a` on, and the same weighted with the slots -/
def tailWeight (D : Rounded.DipData) (slot : ℕ → ℕ → ℕ) (a : ℕ) : ℕ :=
  ((List.range' a (D.n * 100 - a)).map (weight D slot)).sum

def tailSum (D : Rounded.DipData) (slot : ℕ → ℕ → ℕ) (a : ℕ) : ℕ :=
  ((List.range' a (D.n * 100 - a)).map fun k => k * weight D slot k).sum

theorem sum_le_bound {l : List ℕ} {B : ℕ} (h : ∀ x ∈ l, x ≤ B) : l.sum ≤ l.length * B := by
  simpa using List.sum_le_card_nsmul l B h

theorem tailWeight_le (hs : Size D) (a : ℕ) : tailWeight D slot a ≤ 2 ^ 80 := by
  refine (sum_le_bound (B := 2 ^ 60) ?_).trans ?_
  · intro x hx
    obtain ⟨k, _, rfl⟩ := List.mem_map.mp hx
    exact weight_le hs k
  · have := hs.n_le
    simp only [List.length_map, List.length_range']
    calc (D.n * 100 - a) * 2 ^ 60 ≤ 2 ^ 20 * 2 ^ 60 := Nat.mul_le_mul_right _ (by omega)
      _ = 2 ^ 80 := by norm_num

theorem tailSum_le (hs : Size D) (a : ℕ) : tailSum D slot a ≤ 2 ^ 100 := by
  have hn := hs.n_le
  refine (sum_le_bound (B := 2 ^ 80) ?_).trans ?_
  · intro x hx
    obtain ⟨k, hk, rfl⟩ := List.mem_map.mp hx
    have h1 := List.mem_range'_1.mp hk
    calc k * weight D slot k ≤ 2 ^ 20 * 2 ^ 60 := Nat.mul_le_mul (by omega) (weight_le hs k)
      _ = 2 ^ 80 := by norm_num
  · simp only [List.length_map, List.length_range']
    calc (D.n * 100 - a) * 2 ^ 80 ≤ 2 ^ 20 * 2 ^ 80 := Nat.mul_le_mul_right _ (by omega)
      _ = 2 ^ 100 := by norm_num

theorem sum_div (l : List ℕ) (f : ℕ → ℕ) (N : ℝ) : (l.map fun k => (f k : ℝ) / N).sum = ((l.map f).sum : ℕ) / N := by
  induction l with
  | nil => simp
  | cons a l ih =>
    rw [List.map_cons, List.sum_cons, ih, List.map_cons, List.sum_cons]
    push_cast
    ring

theorem round_range (E : Env M u tiny huge) {a b : ℕ} (hb : b ≤ 2 ^ 53) :
    (npRange (a : ℤ) (b : ℤ)).map M.R.round = (List.range' a (b - a)).map fun k : ℕ => XR.fin (k : ℝ) := by
  unfold npRange
  rw [List.map_map, List.range'_eq_map_range, List.map_map, show ((b : ℤ) - a).toNat = b - a by omega]
  apply List.map_congr_left
  intro k hk
  have hk' := List.mem_range.mp hk
  simp only [Function.comp]
  have e : (((a : ℤ) + (k : ℤ) : ℤ) : ℝ) = ((a + k : ℕ) : ℝ) := by push_cast; ring
  rw [e]
  exact E.nat (by omega)

/-- the computed tail probability, and the computed premium -/
theorem dip_close (E : Env M u tiny huge) (hs : Size D) (hslot : Slots M D slot) (junk : ℕ → ℕ → XR) {thr : XR} {p : ℕ}
    (hp : Rounded.dipPct M thr = .ok (p : ℤ)) :
    (tailWeight D slot (p * D.n) = 0 → Rounded.dip M D junk thr = .ok .nan) ∧
    (0 < tailWeight D slot (p * D.n) → ∃ r, Rounded.dip M D junk thr = .ok (.fin r) ∧
      Close u (3 * (D.n * D.nSim + 100 * D.n) + 10)
        ((tailSum D slot (p * D.n) : ℝ) / (100 * (D.counts.length * D.nSim) : ℕ)) r) := by
  obtain ⟨raw, h1, h2, h3⟩ := prob_close E hs hslot junk
  have hn := hs.n
  have hn2 := hs.n_le
  have hm := hs.sim
  have hm2 := hs.sim_le
  have hr := hs.ret
  have hr2 := hs.ret_le
  have hP : D.n * D.nSim ≤ 2 ^ 30 := by calc _ ≤ 2 ^ 10 * 2 ^ 20 := Nat.mul_le_mul hn2 hm2
                                         _ = 2 ^ 30 := by norm_num
  set N := D.counts.length * D.nSim with hN
  have hN0 : 0 < N := Nat.mul_pos hr hm
  have hN1 : N ≤ 2 ^ 50 := by calc _ ≤ 2 ^ 30 * 2 ^ 20 := Nat.mul_le_mul hr2 hm2
                               _ = 2 ^ 50 := by norm_num
  have hN0' : (0 : ℝ) < N := by exact_mod_cast hN0
  set a := p * D.n with ha
  set prob := raw.map (M.R.div · (M.R.round (.fin D.nSim))) with hprob
  have hpl : prob.length = D.n * 100 := by rw [hprob, List.length_map, h2]
  have hslice : pySliceFrom prob ((p : ℤ) * D.n) = prob.drop a := by
    unfold pySliceFrom
    rw [if_neg (by have : (0 : ℤ) ≤ (p : ℤ) * D.n := by positivity
                   omega)]
    congr 1
  have hF : List.Forall₂ (fun v r => ∃ y, v = .fin y ∧ M.R.rd y = .fin y ∧ Close u (D.n * D.nSim + 2) r y)
      (prob.drop a) ((List.range' a (D.n * 100 - a)).map fun k => (weight D slot k : ℝ) / N) := by
    have := drop_forall (R := fun v r => ∃ y, v = .fin y ∧ M.R.rd y = .fin y ∧ Close u (D.n * D.nSim + 2) r y)
      (l := prob) (g := fun k => (weight D slot k : ℝ) / N)
      (by
        intro k hk
        have hk' : k < raw.length := by simpa [hprob] using hk
        simpa [hprob] using h3 k hk') a
    rwa [hpl] at this
  have hlen : (prob.drop a).length = D.n * 100 - a := by rw [List.length_drop, hpl]
  have hW := tailWeight_le (slot := slot) hs a
  have hS := tailSum_le (slot := slot) hs a
  have hx : ((List.range' a (D.n * 100 - a)).map fun k => (weight D slot k : ℝ) / N).sum = (tailWeight D slot a : ℝ) / N :=
    sum_div _ _ _
  have hbig : ∀ c : ℕ, c ≤ 2 ^ 100 → 4 * ((c : ℝ) / N) ≤ huge := by
    intro c hc
    have h1' : (1 : ℝ) ≤ N := by exact_mod_cast hN0
    have h2' : (c : ℝ) ≤ 2 ^ 100 := by exact_mod_cast hc
    have h3' : (c : ℝ) / N ≤ c := div_le_self (by positivity) h1'
    have h4' := E.large
    have h5' : (2 : ℝ) ^ 100 ≤ 2 ^ 200 := by norm_num
    linarith
  -- line 83
  obtain ⟨g, hg, hgr, hgc⟩ := E.A.sum_close E.lt_one (M.sum_ok 1 (prob.drop a)) _ hF
    (E.k (by rw [hlen]; omega)) (by rw [hx]; exact hbig _ (hW.trans (by norm_num)))
  rw [hx, hlen] at hgc
  have hgc' : Close u (D.n * D.nSim + 100 * D.n + 1) ((tailWeight D slot a : ℝ) / N) g :=
    hgc.mono E.A.u_nonneg E.lt_one (by omega)
  -- lines 85-88
  have hrange : (npRange ((p : ℤ) * D.n) (100 * D.n)).map M.R.round
      = (List.range' a (D.n * 100 - a)).map fun k : ℕ => XR.fin (k : ℝ) := by
    have := round_range E (a := a) (b := D.n * 100) (by omega)
    rw [← this]
    congr 2
    · push_cast
      ring
  have hdotF : List.Forall₂ (fun v r => ∃ y, v = .fin y ∧ M.R.rd y = .fin y ∧ Close u (D.n * D.nSim + 3) r y)
      (List.zipWith (fun x y => M.R.mul x y) ((List.range' a (D.n * 100 - a)).map fun k : ℕ => XR.fin (k : ℝ)) (prob.drop a))
      ((List.range' a (D.n * 100 - a)).map fun k => ((k * weight D slot k : ℕ) : ℝ) / N) := by
    rw [List.forall₂_iff_get] at hF ⊢
    refine ⟨by simp [hpl], fun i hi1 hi2 => ?_⟩
    have hi3 : i < D.n * 100 - a := by simpa using hi2
    have hF2 := hF.2 i (by rw [hlen]; exact hi3) (by simpa using hi3)
    simp only [List.get_eq_getElem, List.getElem_map, List.getElem_range', one_mul, List.getElem_zipWith] at hF2 ⊢
    obtain ⟨y, hy, hyr, hyc⟩ := hF2
    rw [hy]
    have e : ((a + i : ℕ) : ℝ) * ((weight D slot (a + i) : ℝ) / N) = (((a + i) * weight D slot (a + i) : ℕ) : ℝ) / N := by
      push_cast
      ring
    have hw := weight_le (slot := slot) hs (a + i)
    obtain ⟨s, s1, s2, s3⟩ := E.A.mul E.lt_one (E.k (by omega))
      (Close.refl (show (0 : ℝ) ≤ ((a + i : ℕ) : ℝ) by positivity)) hyc
      (by
        rw [e]
        refine E.range hN0 ?_ (hN1.trans (by norm_num))
        calc (a + i) * weight D slot (a + i) ≤ 2 ^ 20 * 2 ^ 60 := Nat.mul_le_mul (by omega) hw
          _ ≤ 2 ^ 200 := by norm_num)
    rw [e] at s3
    exact ⟨s, s1, s2, s3.mono E.A.u_nonneg E.lt_one (by omega)⟩
  have hdx : ((List.range' a (D.n * 100 - a)).map fun k => ((k * weight D slot k : ℕ) : ℝ) / N).sum = (tailSum D slot a : ℝ) / N :=
    sum_div _ (fun k => k * weight D slot k) _
  have hdlen : (List.zipWith (fun x y => M.R.mul x y) ((List.range' a (D.n * 100 - a)).map fun k : ℕ => XR.fin (k : ℝ))
      (prob.drop a)).length = D.n * 100 - a := by simp [hpl]
  obtain ⟨d, hd, hdr, hdc⟩ := E.A.sum_close E.lt_one (M.sum_ok 2 _) _ hdotF
    (E.k (by rw [hdlen]; omega)) (by rw [hdx]; exact hbig _ hS)
  rw [hdx, hdlen] at hdc
  have hdc' : Close u (D.n * D.nSim + 100 * D.n + 2) ((tailSum D slot a : ℝ) / N) d :=
    hdc.mono E.A.u_nonneg E.lt_one (by omega)
  -- the call
  have hcall : Rounded.dip M D junk thr = .ok (M.R.mul (M.R.div (.fin d) (M.R.mul 100 (.fin g))) (.fin g)) := by
    unfold Rounded.dip Rounded.dot
    simp only [bind, Except.bind, pure, Except.pure, h1, hp]
    rw [← hprob, hslice, hrange, if_pos (by simp [hpl])]
    simp only [hg, hd]
  -- line 88
  have e100 : (100 : ℝ) * ((tailWeight D slot a : ℝ) / N) = ((100 * tailWeight D slot a : ℕ) : ℝ) / N := by push_cast; ring
  obtain ⟨h, hh, hhr, hhc⟩ := E.A.mul E.lt_one (E.k (by omega)) (Close.refl (show (0 : ℝ) ≤ 100 by norm_num)) hgc'
    (by rw [e100]; exact E.range hN0 (by omega) (hN1.trans (by norm_num)))
  constructor
  · intro hz
    rw [hz] at hgc' 
    have hg0 : g = 0 := by
      have h1' := hgc'.2.2
      have h2' := hgc'.nonneg E.lt_one.le
      have h3' : 0 < (1 - u) ^ (D.n * D.nSim + 100 * D.n + 1) := pow_pos (by linarith [E.lt_one]) _
      simp only [Nat.cast_zero, zero_div] at h1'
      nlinarith
    rw [hcall, hg0]
    have e1 : M.R.mul 100 (.fin 0) = .fin 0 := by
      unfold Rounding.mul
      rw [XR.ofNat_def, XR.fin_mul, mul_zero]
      exact Rounding.rd_zero
    have e2 : ∃ x : XR, M.R.div (.fin d) (.fin 0) = x ∧ (x = .nan ∨ x = .pinf ∨ x = .ninf) := by
      refine ⟨_, rfl, ?_⟩
      unfold Rounding.div
      rw [XR.fin_div_zero]
      rcases lt_trichotomy d 0 with h | h | h
      · rw [XR.infSign_neg h]; exact Or.inr (Or.inr rfl)
      · rw [h, XR.infSign_zero]; exact Or.inl rfl
      · rw [XR.infSign_pos h]; exact Or.inr (Or.inl rfl)
    obtain ⟨x, hx1, hx2⟩ := e2
    rw [e1, hx1]
    have : ∀ s : ℝ, s = 0 → XR.infSign s = .nan := fun s h => by rw [h, XR.infSign_zero]
    rcases hx2 with rfl | rfl | rfl
    · rfl
    · show Except.ok (M.R.round (XR.infSign 0)) = _
      rw [XR.infSign_zero]; rfl
    · show Except.ok (M.R.round (XR.infSign (-0))) = _
      rw [neg_zero, XR.infSign_zero]; rfl
  · intro hpos
    have hpos' : (0 : ℝ) < tailWeight D slot a := by exact_mod_cast hpos
    rw [hcall, show (100 : XR) = .fin 100 from rfl, hh]
    have eq : (tailSum D slot a : ℝ) / N / (100 * ((tailWeight D slot a : ℝ) / N))
        = (tailSum D slot a : ℝ) / (100 * tailWeight D slot a : ℕ) := by
      push_cast
      field_simp
    obtain ⟨q, hq, hqr, hqc⟩ := E.A.div E.lt_one (E.k (by omega)) hdc' hhc (by positivity)
      (by
        rw [eq]
        exact E.range (by omega) (hS.trans (by norm_num)) (by omega))
    have er : (tailSum D slot a : ℝ) / N / (100 * ((tailWeight D slot a : ℝ) / N)) * ((tailWeight D slot a : ℝ) / N)
        = (tailSum D slot a : ℝ) / (100 * N : ℕ) := by
      push_cast
      field_simp
    obtain ⟨r, hr', hrr, hrc⟩ := E.A.mul E.lt_one (E.k (by omega)) hqc hgc'
      (by
        rw [er]
        exact E.range (by omega) (hS.trans (by norm_num)) (by omega))
    rw [er] at hrc
    refine ⟨r, by rw [hq, hr'], hrc.mono E.A.u_nonneg E.lt_one (by omega)⟩

theorem tailWeight_eq (hslot : Slots M D slot) (a : ℕ) : tailWeight D slot a =
    ((loopPairs D.n D.nSim).map fun ij => if a ≤ slot ij.1 ij.2 then D.counts.count (ij.1 + 1) else 0).sum := by
  have := sum_slots slot (fun i => D.counts.count i) (fun _ => 1) a (D.n * 100) (loopPairs D.n D.nSim) fun ij h => by
    obtain ⟨hi, hj⟩ := mem_loopPairs.mp h
    exact (hslot _ hi _ hj).2
  simp only [one_mul] at this
  exact this

theorem tailSum_eq (hslot : Slots M D slot) (a : ℕ) : tailSum D slot a =
    ((loopPairs D.n D.nSim).map fun ij => if a ≤ slot ij.1 ij.2 then slot ij.1 ij.2 * D.counts.count (ij.1 + 1) else 0).sum := by
  have := sum_slots slot (fun i => D.counts.count i) (fun k => k) a (D.n * 100) (loopPairs D.n D.nSim) fun ij h => by
    obtain ⟨hi, hj⟩ := mem_loopPairs.mp h
    exact (hslot _ hi _ hj).2
  simpa [tailSum, weight] using this

/-- some simulated loss in the tail has positive probability -/
def Reached (D : Rounded.DipData) (slot : ℕ → ℕ → ℕ) (a : ℕ) : Prop :=
  ∃ i < D.n, ∃ j < D.nSim, a ≤ slot i j ∧ i + 1 ∈ D.counts

theorem tailWeight_pos (hslot : Slots M D slot) (a : ℕ) : 0 < tailWeight D slot a ↔ Reached D slot a := by
  rw [tailWeight_eq hslot, Nat.pos_iff_ne_zero, ne_eq, List.sum_eq_zero_iff]
  simp only [List.mem_map, forall_exists_index, and_imp, forall_apply_eq_imp_iff₂, not_forall, Reached]
  constructor
  · rintro ⟨ij, h, h2⟩
    obtain ⟨hi, hj⟩ := mem_loopPairs.mp h
    split_ifs at h2 with h3
    · exact ⟨_, hi, _, hj, h3, by rw [← List.count_pos_iff]; omega⟩
    · exact absurd rfl h2
  · rintro ⟨i, hi, j, hj, h, hc⟩
    refine ⟨(i, j), mem_loopPairs.mpr ⟨hi, hj⟩, ?_⟩
    rw [if_pos h]
    have := List.count_pos_iff.mpr hc
    simp only
    omega

/-- the premium of the slots from `a` on, without rounding: the average over the simulations of the joint-default frequency times
the loss (in units of one bank's liabilities) of the slot -/
def premium (D : Rounded.DipData) (slot : ℕ → ℕ → ℕ) (a : ℕ) : ℝ :=
  (∑ i ∈ Finset.range D.n, ∑ j ∈ Finset.range D.nSim, if a ≤ slot i j then
    (D.counts.count (i + 1) : ℝ) / D.counts.length * ((slot i j : ℝ) / 100) else 0) / D.nSim

theorem tailSum_premium (hslot : Slots M D slot) (a : ℕ) :
    (tailSum D slot a : ℝ) / (100 * (D.counts.length * D.nSim) : ℕ) = premium D slot a := by
  unfold premium
  rw [← sum_loopPairs D.n D.nSim (fun ij => if a ≤ slot ij.1 ij.2 then
    (D.counts.count (ij.1 + 1) : ℝ) / D.counts.length * ((slot ij.1 ij.2 : ℝ) / 100) else 0), tailSum_eq hslot]
  generalize loopPairs D.n D.nSim = l
  induction l with
  | nil => simp
  | cons ij l ih =>
    rw [List.map_cons, List.sum_cons, List.map_cons, List.sum_cons]
    rw [Nat.cast_add, _root_.add_div, ih, _root_.add_div]
    congr 1
    split_ifs with h
    · push_cast
      rw [div_mul_div_comm, div_div]
      ring
    · simp

end RoundedDip
open RoundedDip

/-- C195. In binary64, for up to 2^10 banks, 2^20 loss simulations and 2^30 scenarios: when the slots of the simulated losses are on
the grid (computed slots, see `C195_slot`) and some loss at or above the threshold has positive probability, the call returns a
number whose relative error against the exact average over those slots is at most `4 (n m + 100 n) 2^-53` (`n` banks, `m` simulations). -/
theorem C195_value (M : Machine) (hM : M.R = binary64.rounding) (D : Model.Rounded.DipData) (hs : RoundedDip.Size D)
    (slot : ℕ → ℕ → ℕ) (hslot : RoundedDip.Slots M D slot) (junk : ℕ → ℕ → XR) (thr : XR) (p : ℕ)
    (hp : Model.Rounded.dipPct M thr = .ok (p : ℤ)) (hr : RoundedDip.Reached D slot (p * D.n)) :
    ∃ r : ℝ, Model.Rounded.dip M D junk thr = .ok (.fin r) ∧ 0 ≤ r ∧
      |r - RoundedDip.premium D slot (p * D.n)| ≤
        4 * (D.n * D.nSim + 100 * D.n) * 2 ^ (-53 : ℤ) * RoundedDip.premium D slot (p * D.n) := by
  obtain ⟨tiny, huge, E⟩ := env64 hM
  obtain ⟨r, h1, h2⟩ := (dip_close E hs hslot junk hp).2 ((tailWeight_pos hslot _).mpr hr)
  rw [tailSum_premium hslot] at h2
  have hP : D.n * D.nSim ≤ 2 ^ 30 := by calc _ ≤ 2 ^ 10 * 2 ^ 20 := Nat.mul_le_mul hs.n_le hs.sim_le
                                         _ = 2 ^ 30 := by norm_num
  have hk : 3 * (D.n * D.nSim + 100 * D.n) + 10 ≤ 2 ^ 32 := by have := hs.n_le; omega
  have hk' : ((3 * (D.n * D.nSim + 100 * D.n) + 10 : ℕ) : ℝ) ≤ 2 ^ 32 := by exact_mod_cast hk
  refine ⟨r, h1, h2.nonneg E.lt_one.le, (h2.error E.A.u_nonneg ?_ E.lt_one).trans ?_⟩
  · calc _ ≤ (2 : ℝ) ^ 32 * 2 ^ (-53 : ℤ) := mul_le_mul_of_nonneg_right hk' (by positivity)
      _ < 1 := by norm_num
  · apply mul_le_mul_of_nonneg_right _ h2.1
    have e : ((3 * (D.n * D.nSim + 100 * D.n) + 10 : ℕ) : ℝ) = 3 * (D.n * D.nSim + 100 * D.n) + 10 := by push_cast; ring
    rw [e] at hk' ⊢
    have h0 : (100 : ℝ) ≤ D.n * D.nSim + 100 * D.n := by
      have h1 : (1 : ℝ) ≤ D.n := by exact_mod_cast hs.n
      have h2 : (0 : ℝ) ≤ D.n * D.nSim := by positivity
      linarith
    generalize ((D.n : ℝ) * D.nSim + 100 * D.n) = x at *
    norm_num at hk' ⊢
    rw [div_le_iff₀ (by linarith)]
    nlinarith

/-- C195. When no loss at or above the threshold has positive probability the call returns NaN. -/
theorem C195_nan (M : Machine) (hM : M.R = binary64.rounding) (D : Model.Rounded.DipData) (hs : RoundedDip.Size D)
    (slot : ℕ → ℕ → ℕ) (hslot : RoundedDip.Slots M D slot) (junk : ℕ → ℕ → XR) (thr : XR) (p : ℕ)
    (hp : Model.Rounded.dipPct M thr = .ok (p : ℤ)) (hr : ¬ RoundedDip.Reached D slot (p * D.n)) :
    Model.Rounded.dip M D junk thr = .ok .nan := by
  obtain ⟨tiny, huge, E⟩ := env64 hM
  refine (dip_close E hs hslot junk hp).1 ?_
  by_contra h
  exact hr ((tailWeight_pos hslot _).mp (Nat.pos_of_ne_zero h))

/-- C195. The computed slot of a simulated loss differs from the slot of the exact sum of the draws by at most one. -/
theorem C195_slot (M : Machine) (hM : M.R = binary64.rounding) (D : Model.Rounded.DipData) (x : ℕ → ℕ → ℕ → ℝ) (i j : ℕ)
    (hi : i < 2 ^ 10) (hx : ∀ r ≤ i, D.tri i r j = .fin (x i r j) ∧ M.R.Rep (.fin (x i r j)) ∧ 1 / 10 ≤ x i r j ∧ x i r j ≤ 1) :
    ∃ y : ℝ, M.R.mul (Model.Rounded.dipSum M D i j) 100 = .fin y ∧ 0 < ⌈y⌉ ∧
      |⌈y⌉ - ⌈100 * ∑ r ∈ Finset.range (i + 1), x i r j⌉| ≤ 1 := by
  obtain ⟨tiny, huge, E⟩ := env64 hM
  set L := ∑ r ∈ Finset.range (i + 1), x i r j with hL
  have hlist : ((List.range (i + 1)).map fun r => D.tri i r j) = ((List.range (i + 1)).map fun r => XR.fin (x i r j)) :=
    List.map_congr_left fun r hr => (hx r (by have := List.mem_range.mp hr; omega)).1
  have hre : (((List.range (i + 1)).map fun r => XR.fin (x i r j)).map Accurate.re).sum = L := by
    rw [List.map_map]
    rfl
  have hi' : ((i + 1 : ℕ) : ℝ) ≤ 2 ^ 10 := by exact_mod_cast hi
  have hLlo : (i + 1 : ℕ) * (1 / 10 : ℝ) ≤ L := by
    have := Finset.card_nsmul_le_sum (Finset.range (i + 1)) (fun r => x i r j) (1 / 10)
      (fun r hr => (hx r (by have := Finset.mem_range.mp hr; omega)).2.2.1)
    simpa using this
  have hLhi : L ≤ (i + 1 : ℕ) := by
    have := Finset.sum_le_card_nsmul (Finset.range (i + 1)) (fun r => x i r j) 1
      (fun r hr => (hx r (by have := Finset.mem_range.mp hr; omega)).2.2.2)
    simpa using this
  have hL0 : 1 / 10 ≤ L := by
    refine le_trans ?_ hLlo
    push_cast
    have : (0 : ℝ) ≤ i := by positivity
    linarith
  obtain ⟨t, ht, htr, htc⟩ := E.A.sum E.lt_one (M.sum_ok 0 ((List.range (i + 1)).map fun r => XR.fin (x i r j)))
    (by
      intro v hv
      obtain ⟨r, hr, rfl⟩ := List.mem_map.mp hv
      obtain ⟨_, a, b, _⟩ := hx r (by have := List.mem_range.mp hr; omega)
      exact ⟨_, rfl, by linarith, a⟩)
    (by
      simp only [List.length_map, List.length_range]
      exact E.k (by omega))
    (by
      rw [hre]
      have := E.large
      have h5 : (2 : ℝ) ^ 10 ≤ 2 ^ 200 := by norm_num
      linarith)
  rw [hre] at htc
  simp only [List.length_map, List.length_range, Nat.add_sub_cancel] at htc
  have hsmall : 2 * tiny ≤ 1 := by
    have h1 := E.small
    have h2 := E.A.tiny_nonneg
    nlinarith [show (1 : ℝ) ≤ 2 ^ 200 by norm_num]
  obtain ⟨y, hy, hyr, hyc⟩ := E.A.mul E.lt_one (E.k (by omega)) htc (Close.refl (show (0 : ℝ) ≤ 100 by norm_num))
    (by
      right
      have h5 : (2 : ℝ) ^ 10 * 200 ≤ 2 ^ 200 := by norm_num
      have h6 := E.large
      constructor <;> linarith)
  refine ⟨y, ?_, ?_, ?_⟩
  · unfold Model.Rounded.dipSum
    rw [hlist, ht]
    exact hy
  · have h0 := hyc.2.1
    have : 0 < (1 - (2 : ℝ) ^ (-53 : ℤ)) ^ (i + 0 + 1) := pow_pos (by norm_num) _
    rw [Int.ceil_pos]
    nlinarith
  · have herr := hyc.error E.A.u_nonneg (by
      push_cast
      norm_num
      push_cast at hi'
      norm_num at hi'
      linarith) E.lt_one
    have hlt : |y - L * 100| < 1 := by
      refine herr.trans_lt ?_
      push_cast at hi' hLhi ⊢
      norm_num at hi' ⊢
      have hi0 : (0 : ℝ) ≤ i := by positivity
      generalize (i : ℝ) = z at *
      have h1 : (z + 1) * (1 / 9007199254740992) / (1 - (z + 1) * (1 / 9007199254740992)) ≤ 1 / 1000000000 := by
        rw [div_le_iff₀ (by linarith)]
        linarith
      have h2 : 0 ≤ L * 100 := by linarith
      calc _ ≤ 1 / 1000000000 * (L * 100) := mul_le_mul_of_nonneg_right h1 h2
        _ < 1 := by linarith
    rw [mul_comm L 100] at hlt
    obtain ⟨h1, h2⟩ := abs_lt.mp hlt
    rw [abs_le]
    have a1 := Int.le_ceil y
    have a2 := Int.ceil_lt_add_one y
    have b1 := Int.le_ceil (100 * L)
    have b2 := Int.ceil_lt_add_one (100 * L)
    constructor
    · have : ((⌈100 * L⌉ : ℤ) : ℝ) < (⌈y⌉ + 2 : ℤ) := by push_cast; linarith
      have := Int.cast_lt.mp this
      omega
    · have : ((⌈y⌉ : ℤ) : ℝ) < (⌈100 * L⌉ + 2 : ℤ) := by push_cast; linarith
      have := Int.cast_lt.mp this
      omega

namespace RoundedDip

/-- rounding of a ratio of natural numbers to 53 bits: a certificate that can be checked by computation -/
def cert (a b m s : ℕ) : Bool :=
  decide (0 < b) && decide (s ≤ 1000) && decide (2 ^ 52 * b ≤ a * 2 ^ s) && decide (a * 2 ^ s < 2 ^ 53 * b) &&
    (decide (2 * (a * 2 ^ s) < (2 * m + 1) * b) && decide (2 * m * b < 2 * (a * 2 ^ s) + b) ||
      decide (m % 2 = 0) && (decide (2 * (a * 2 ^ s) = (2 * m + 1) * b) || decide (2 * m * b = 2 * (a * 2 ^ s) + b)))

theorem rd_cert {a b m s : ℕ} (h : cert a b m s = true) : binary64.rd ((a : ℝ) / b) = .fin ((m : ℝ) / 2 ^ s) := by
  simp only [cert, Bool.and_eq_true, Bool.or_eq_true, decide_eq_true_eq] at h
  obtain ⟨⟨⟨⟨h1, h2⟩, h3⟩, h4⟩, h5⟩ := h
  have hb : (0 : ℝ) < b := by exact_mod_cast h1
  have hs : (0 : ℝ) < 2 ^ s := by positivity
  have hz : (2 : ℝ) ^ (-(s : ℤ)) = 1 / 2 ^ s := by rw [zpow_neg, zpow_natCast, one_div]
  have h3' : (2 : ℝ) ^ 52 * b ≤ a * 2 ^ s := by exact_mod_cast h3
  have h4' : (a : ℝ) * 2 ^ s < 2 ^ 53 * b := by exact_mod_cast h4
  have e := rd64_eq (x := (a : ℝ) / b) (m : ℤ) (-(s : ℤ)) (by omega) (by omega)
    (by rw [hz, mul_one_div, div_le_div_iff₀ hs hb]; exact h3')
    (by rw [hz, mul_one_div, div_lt_div_iff₀ hb hs]; exact h4')
    (by
      rw [hz, div_div_eq_mul_div, div_one, div_mul_eq_mul_div, Int.cast_natCast]
      rcases h5 with ⟨h5, h6⟩ | ⟨hev, h5⟩
      · have h5' : 2 * ((a : ℝ) * 2 ^ s) < (2 * m + 1) * b := by exact_mod_cast h5
        have h6' : 2 * (m : ℝ) * b < 2 * (a * 2 ^ s) + b := by exact_mod_cast h6
        left
        rw [abs_lt]
        constructor
        · rw [lt_sub_iff_add_lt, lt_div_iff₀ hb]; linarith
        · rw [sub_lt_iff_lt_add, div_lt_iff₀ hb]; linarith
      · right
        refine ⟨?_, by rw [Int.even_coe_nat, Nat.even_iff]; exact hev⟩
        rcases h5 with h5 | h5
        · have h5' : 2 * ((a : ℝ) * 2 ^ s) = (2 * m + 1) * b := by exact_mod_cast h5
          rw [show (a : ℝ) * 2 ^ s / b - m = 1 / 2 by
            rw [sub_eq_iff_eq_add, div_eq_iff hb.ne']; linarith]
          norm_num
        · have h5' : 2 * (m : ℝ) * b = 2 * (a * 2 ^ s) + b := by exact_mod_cast h5
          rw [show (a : ℝ) * 2 ^ s / b - m = -(1 / 2) by
            rw [sub_eq_iff_eq_add, div_eq_iff hb.ne']; linarith]
          norm_num)
  rw [e, hz, Int.cast_natCast, mul_one_div]

/-- mantissa and exponent of a ratio, rounded to nearest, halves to even -/
def enc (a b : ℕ) : ℕ × ℕ :=
  let s := 53 + Nat.log2 b - Nat.log2 a
  let s := if a * 2 ^ s < 2 ^ 53 * b then s else s - 1
  let m := (2 * (a * 2 ^ s) + b) / (2 * b)
  (if 2 * m * b = 2 * (a * 2 ^ s) + b ∧ m % 2 = 1 then m - 1 else m, s)

/-- the whole percents -/
def percentCheck (c : ℕ) : Bool :=
  let e := enc c 100
  let f := enc (100 * e.1) (2 ^ e.2)
  cert c 100 e.1 e.2 && cert (100 * e.1) (2 ^ e.2) f.1 f.2 &&
    decide (f.1 / 2 ^ f.2 = if c = 29 ∨ c = 57 ∨ c = 58 then c - 1 else c)

theorem percent_all : ∀ c < 101, c ≠ 0 → percentCheck c = true := by decide

end RoundedDip

/-- C195. For every whole number `c` of percent from 0 to 100: with the threshold written as a decimal number (`0.01 c` rounded to
binary64), `int(default_threshold * 100)` is `c`, except that it is `c - 1` for 29, 57 and 58 percent. -/
theorem C195_percent (M : Machine) (hM : M.R = binary64.rounding) (c : ℕ) (hc : c ≤ 100) :
    Model.Rounded.dipPct M (M.R.rd ((c : ℝ) / 100)) = .ok (if c = 29 ∨ c = 57 ∨ c = 58 then (c : ℤ) - 1 else c) := by
  have hR : ∀ r, M.R.rd r = binary64.rd r := fun r => by rw [hM]; rfl
  rcases Nat.eq_zero_or_pos c with rfl | hpos
  · unfold Model.Rounded.dipPct
    rw [Nat.cast_zero, zero_div, Rounding.rd_zero]
    unfold Rounding.mul
    rw [XR.ofNat_def, XR.fin_mul, zero_mul, Rounding.round_fin, Rounding.rd_zero]
    simp [pyInt]
  have hk := percent_all c (by omega) (by omega)
  simp only [percentCheck, Bool.and_eq_true, decide_eq_true_eq] at hk
  obtain ⟨⟨h1, h2⟩, h3⟩ := hk
  set e := enc c 100 with he
  set f := enc (100 * e.1) (2 ^ e.2) with hf
  have r1 := rd_cert h1
  have r2 := rd_cert h2
  rw [show ((100 : ℕ) : ℝ) = 100 by norm_num] at r1
  have e1 : ((100 * e.1 : ℕ) : ℝ) / ((2 ^ e.2 : ℕ) : ℝ) = (e.1 : ℝ) / 2 ^ e.2 * 100 := by push_cast; ring
  rw [e1] at r2
  unfold Model.Rounded.dipPct Rounding.mul
  rw [hR, r1, XR.ofNat_def, XR.fin_mul, Rounding.round_fin, hR, show (OfNat.ofNat 100 : ℝ) = 100 from rfl, r2]
  have hfl : ⌊(f.1 : ℝ) / 2 ^ f.2⌋ = ((f.1 / 2 ^ f.2 : ℕ) : ℤ) := by
    rw [show ((2 : ℝ) ^ f.2) = ((2 ^ f.2 : ℕ) : ℝ) by push_cast; rfl, Int.floor_div_natCast, Int.floor_natCast]
    rfl
  rw [pyInt, if_pos (by positivity), hfl, h3]
  split_ifs with h
  · congr 1
    omega
  · rfl

/-- C195. A threshold of 29 percent gives the result of 28 percent on every input, and 57 percent gives the result of 56 percent. -/
theorem C195_same (M : Machine) (hM : M.R = binary64.rounding) (D : Model.Rounded.DipData) (junk : ℕ → ℕ → XR) :
    Model.Rounded.dip M D junk (M.R.rd (29 / 100)) = Model.Rounded.dip M D junk (M.R.rd (28 / 100)) ∧
    Model.Rounded.dip M D junk (M.R.rd (57 / 100)) = Model.Rounded.dip M D junk (M.R.rd (56 / 100)) := by
  have key : ∀ a b, Model.Rounded.dipPct M a = Model.Rounded.dipPct M b →
      Model.Rounded.dip M D junk a = Model.Rounded.dip M D junk b := by
    intro a b hab
    unfold Model.Rounded.dip
    rw [hab]
  have h : ∀ c : ℕ, c ≤ 100 → _ := fun c hc => C195_percent M hM c hc
  constructor
  · exact key _ _ ((by simpa using h 29 (by norm_num) : _ = Except.ok (28 : ℤ)).trans (by simpa using (h 28 (by norm_num)).symm))
  · exact key _ _ ((by simpa using h 57 (by norm_num) : _ = Except.ok (56 : ℤ)).trans (by simpa using (h 56 (by norm_num)).symm))

/-- C195. Any threshold in `[0, 1]`: the computed whole percents are those of the exact product, or one more when rounding reaches
the next integer. -/
theorem C195_percent_any (M : Machine) (t : ℝ) (h0 : 0 ≤ t) (h1 : t ≤ 1) (hp : 7 ≤ M.R.prec) :
    ∃ k : ℕ, Model.Rounded.dipPct M (.fin t) = .ok (k : ℤ) ∧ (k = ⌊100 * t⌋₊ ∨ k = ⌊100 * t⌋₊ + 1) ∧ k ≤ 100 := by
  set n := ⌊100 * t⌋₊ with hn
  have hprec : 2 ^ 7 ≤ 2 ^ M.R.prec := Nat.pow_le_pow_right (by norm_num) hp
  have hfl : (n : ℝ) ≤ 100 * t := Nat.floor_le (by linarith)
  have hfu : 100 * t < n + 1 := Nat.lt_floor_add_one _
  have hn100 : n ≤ 100 := by
    have : (n : ℝ) ≤ 100 := by linarith
    exact_mod_cast this
  have a := M.R.mono n (t * 100) (by linarith)
  have b := M.R.mono (t * 100) (n + 1) (by linarith)
  have c := M.R.mono (t * 100) 100 (by linarith)
  have en : M.R.rd n = .fin n := M.R.nat n (by omega)
  have en1 : M.R.rd ((n : ℝ) + 1) = .fin ((n : ℝ) + 1) := by
    have := M.R.nat (n + 1) (by omega)
    push_cast at this
    exact this
  have e100 : M.R.rd 100 = .fin 100 := by
    have := M.R.nat 100 (by omega)
    push_cast at this
    exact this
  rw [en] at a
  rw [en1] at b
  rw [e100] at c
  unfold Model.Rounded.dipPct Rounding.mul
  rw [XR.ofNat_def, XR.fin_mul, Rounding.round_fin, show (OfNat.ofNat 100 : ℝ) = 100 from rfl]
  rcases h : M.R.rd (t * 100) with _ | _ | _ | y
  · rw [h] at a; exact absurd a (XR.not_le_nan _)
  · rw [h] at a; exact False.elim a
  · rw [h] at b; exact False.elim b
  · rw [h] at a b c
    have a' := XR.fin_le.mp a
    have b' := XR.fin_le.mp b
    have c' := XR.fin_le.mp c
    have hy0 : 0 ≤ y := le_trans (by positivity) a'
    refine ⟨⌊y⌋₊, ?_, ?_, ?_⟩
    · rw [pyInt, if_pos hy0, Int.natCast_floor_eq_floor hy0]
    · have h1 : n ≤ ⌊y⌋₊ := Nat.le_floor a'
      have h2 : ⌊y⌋₊ ≤ n + 1 := by
        have := Nat.floor_mono b'
        rwa [show ((n : ℝ) + 1) = ((n + 1 : ℕ) : ℝ) by push_cast; rfl, Nat.floor_natCast] at this
      omega
    · have := Nat.floor_mono c'
      rwa [show (100 : ℝ) = ((100 : ℕ) : ℝ) by norm_num, Nat.floor_natCast] at this

/-! ### a concrete case: two banks, two scenarios with one and two defaults, every draw is one half -/

namespace RoundedDip

def demo : Model.Rounded.DipData := ⟨2, [1, 2], fun _ _ _ => .fin (1 / 2), 1⟩
def demoSlot (i _j : ℕ) : ℕ := if i = 0 then 50 else 100

theorem demo_size : Size demo := ⟨by decide, by decide, by decide, by decide, by decide, by decide⟩

theorem half_rep : Machine.ieee.R.rd (1 / 2) = .fin (1 / 2) := by
  have := rd_cert (a := 1) (b := 2) (m := 2 ^ 52) (s := 53) (by decide)
  norm_num at this
  norm_num
  exact this

theorem nat_rep {n : ℕ} (h : n ≤ 2 ^ 53) : Machine.ieee.R.rd n = .fin n := Machine.ieee.R.nat n h

theorem demo_sum : Model.Rounded.dipSum Machine.ieee demo 0 0 = .fin (1 / 2) ∧
    Model.Rounded.dipSum Machine.ieee demo 1 0 = .fin 1 := by
  have h1 := nat_rep (n := 1) (by norm_num)
  norm_num at h1
  have hh := half_rep
  constructor
  · simp only [Model.Rounded.dipSum, demo, List.range_succ, List.range_zero, List.map_append, List.map_cons, List.map_nil]
    simp only [Machine.ieee, Rounding.foldSum, List.nil_append, List.foldl_cons, List.foldl_nil, Rounding.add, XR.fin_add,
      Rounding.round_fin]
    norm_num
    norm_num [Machine.ieee] at hh
    exact hh
  · simp only [Model.Rounded.dipSum, demo, List.range_succ, List.range_zero, List.map_append, List.map_cons, List.map_nil]
    simp only [Machine.ieee, Rounding.foldSum, List.nil_append, List.cons_append, List.foldl_cons, List.foldl_nil, Rounding.add,
      XR.fin_add, Rounding.round_fin, zero_add]
    simp only [Machine.ieee] at hh h1
    rw [hh]
    simp only [XR.fin_add, Rounding.round_fin]
    norm_num
    exact h1

theorem demo_slots : Slots Machine.ieee demo demoSlot := by
  have h50 := nat_rep (n := 50) (by norm_num)
  have h100 := nat_rep (n := 100) (by norm_num)
  norm_num at h50 h100
  intro i hi j hj
  have hj0 : j = 0 := by simp only [demo] at hj; omega
  subst hj0
  simp only [demo] at hi
  interval_cases i
  · refine ⟨⟨50, ?_, by simp [demoSlot]⟩, by simp [demoSlot, demo]⟩
    rw [demo_sum.1, XR.ofNat_def]
    simp only [Rounding.mul, XR.fin_mul, Rounding.round_fin]
    norm_num
    exact h50
  · refine ⟨⟨100, ?_, by simp [demoSlot]⟩, by simp [demoSlot, demo]⟩
    rw [demo_sum.2, XR.ofNat_def]
    simp only [Rounding.mul, XR.fin_mul, Rounding.round_fin]
    norm_num
    exact h100

end RoundedDip

/-- with the default threshold of 15 percent (of two banks) both simulated losses count: 50 and 100 percent, each in one of two
scenarios -/
example : ∃ r : ℝ, Model.Rounded.dip Machine.ieee demo (fun _ _ => .nan) (Machine.ieee.R.rd ((15 : ℕ) / 100)) = .ok (.fin r) ∧
    0 ≤ r ∧ |r - 3 / 4| ≤ 4 * (2 * 1 + 100 * 2) * 2 ^ (-53 : ℤ) * (3 / 4) := by
  have hp := C195_percent Machine.ieee rfl 15 (by norm_num)
  obtain ⟨r, h1, h0, h2⟩ := C195_value Machine.ieee rfl demo demo_size demoSlot demo_slots (fun _ _ => .nan) _ 15
    (by simpa using hp) ⟨0, by decide, 0, by decide, by decide, by decide⟩
  have e : premium demo demoSlot (15 * demo.n) = 3 / 4 := by
    unfold premium
    simp only [demo, demoSlot, Finset.sum_range_succ, Finset.sum_range_zero]
    norm_num
  rw [e] at h2
  refine ⟨r, h1, h0, ?_⟩
  simpa [demo] using h2

/-- with a threshold of 60 percent no loss counts -/
example : Model.Rounded.dip Machine.ieee demo (fun _ _ => .nan) (Machine.ieee.R.rd ((60 : ℕ) / 100)) = .ok .nan := by
  have hp := C195_percent Machine.ieee rfl 60 (by norm_num)
  refine C195_nan Machine.ieee rfl demo demo_size demoSlot demo_slots (fun _ _ => .nan) _ 60 (by simpa using hp) ?_
  rintro ⟨i, hi, j, hj, h, -⟩
  simp only [demo] at hi h
  interval_cases i <;> simp [demoSlot] at h

example := C195_slot Machine.ieee rfl demo (fun _ _ _ => 1 / 2) 1 0 (by norm_num)
  (fun r _ => ⟨rfl, half_rep, by norm_num, by norm_num⟩)

example := C195_percent Machine.ieee rfl 29 (by norm_num)
example := C195_same Machine.ieee rfl demo (fun _ _ => .nan)
example := C195_percent_any Machine.ieee (1 / 2) (by norm_num) (by norm_num) (by rw [show Machine.ieee.R.prec = 53 from rfl]; norm_num)

end
end Frds.Props
