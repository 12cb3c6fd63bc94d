import Verif.Lemmas.Matlab
import Verif.Props.Cohort
import Verif.Props.Merton

/-! Properties C156-C159: the Python code of `modified_merton` against the Matlab code it translates. -/
set_option linter.unusedSimpArgs false
namespace Frds.Props
noncomputable section
open Frds Frds.Model Frds.Spec Classical

/-! ### C156: fftsmooth -/

/-- C156: on an even number of finite observations and an even window `2k` with `k + 2 ≤ n`, the Python and
the Matlab smoother return the same numbers; Matlab's, computed with complex transforms, have imaginary
part zero. The result has `n` entries unless the window is wider than the data. -/
theorem C156_port {v : List ℝ} {k : ℕ} (hn : v.length % 2 = 0) (hk : k + 2 ≤ v.length) :
    ∃ l : List ℝ, Model.fftsmooth (v.map XR.fin) (2 * k) = .ok (l.map XR.fin)
      ∧ Matlab.smooth v (2 * k) = some (l.map fun c : ℝ => (c : ℂ)) ∧ l.length = max v.length (2 * k) :=
  ⟨_, Matlab.py_smooth hn hk, Matlab.smooth_ok hk rfl,
    Matlab.smoothList_length (fftProduct_length rfl (by omega) (by omega)) hk⟩

example : ([1, 2, 3, 5] : List ℝ).length % 2 = 0 ∧ 1 + 2 ≤ ([1, 2, 3, 5] : List ℝ).length := by norm_num

/-- C156: Matlab accepts a window exactly when it is an even whole number `2k` with `k + 2 ≤ n`; the number
of observations may be odd. -/
theorem C156_matlab_domain (v : List ℝ) (w : ℚ) :
    (Matlab.smooth v w).isSome ↔ ∃ k : ℕ, w = 2 * k ∧ k + 2 ≤ v.length := by
  refine ⟨Matlab.smooth_some, ?_⟩
  rintro ⟨k, hw, hk⟩
  rw [Matlab.smooth_ok hk hw]; rfl

theorem npIndex_isOk {a : List XR} {i : ℤ} (h1 : -(a.length : ℤ) ≤ i) (h2 : i < a.length) :
    ∃ x, npIndex a i = .ok x := by
  unfold npIndex
  by_cases h : i < 0
  · simp only [if_pos h]
    exact ⟨_, if_pos (by omega)⟩
  · simp only [if_neg h]
    exact ⟨_, if_pos (by omega)⟩

/-- C156: Python accepts a window exactly when the numbers of observations and of window elements are even
and the window is at most twice as long as the data. With `w = 2n - 2` and `w = 2n` it reads `xk[-1]`, the
other end of the padded data, where Matlab stops with an error. -/
theorem C156_python_domain (v : List ℝ) (w : ℕ) :
    (∃ l, Model.fftsmooth (v.map XR.fin) w = .ok l) ↔ v.length % 2 = 0 ∧ w % 2 = 0 ∧ 0 < v.length ∧ w ≤ 2 * v.length := by
  have hch : ∃ u : List ℝ, v.map XR.fin = u.map XR.fin := ⟨v, rfl⟩
  have hcv : hch.choose = v := (map_fin_injective hch.choose_spec).symm
  set n := v.length with hnd
  have hz1 : npZeros (n : ℤ) = .ok (List.replicate n 0) := by simp [npZeros]
  constructor
  · rintro ⟨l, hl⟩
    unfold Model.fftsmooth at hl
    by_cases h1 : n % 2 = 0
    swap
    · simp [← hnd, h1, bind, Except.bind, throw, throwThe, MonadExceptOf.throw] at hl
    by_cases h2 : w % 2 = 0
    swap
    · simp [← hnd, h1, h2, bind, Except.bind, throw, throwThe, MonadExceptOf.throw, pure, Except.pure] at hl
    by_cases h3 : n = 0
    · exfalso
      by_cases h4 : (n : ℤ) - (w / 2 : ℕ) < 0
      · have hz2 : npZeros ((n : ℤ) - (w / 2 : ℕ)) = .error .valueError := by rw [npZeros, if_pos h4]
        simp only [List.length_map, ← hnd, h1, h2, ne_eq, not_true_eq_false, if_false, bind, Except.bind, pure,
          Except.pure, hz1, hz2] at hl
        cases hl
      · have hz2 : npZeros ((n : ℤ) - (w / 2 : ℕ)) = .ok (List.replicate ((n : ℤ) - (w / 2 : ℕ)).toNat 0) := by
          rw [npZeros, if_neg h4]
        simp only [List.length_map, ← hnd, h1, h2, ne_eq, not_true_eq_false, if_false, bind, Except.bind, pure,
          Except.pure, hz1, hz2, if_pos h3, throw, throwThe, MonadExceptOf.throw] at hl
        cases hl
    · refine ⟨h1, h2, by omega, ?_⟩
      by_contra hc
      have hz2 : npZeros ((n : ℤ) - (w / 2 : ℕ)) = .error .valueError := by rw [npZeros, if_pos (by omega)]
      simp only [List.length_map, ← hnd, h1, h2, ne_eq, not_true_eq_false, if_false, bind, Except.bind, pure,
        Except.pure, hz1, hz2] at hl
      cases hl
  · rintro ⟨h1, h2, h3, h4⟩
    have hlen := fftProduct_length hnd.symm h2 (by omega : w / 2 ≤ n)
    have hz2 : npZeros ((n : ℤ) - (w / 2 : ℕ)) = .ok (List.replicate (n - w / 2) 0) := by
      rw [npZeros, if_neg (by omega)]
      congr 2; omega
    unfold Model.fftsmooth
    simp only [List.length_map, ← hnd, h1, h2, ne_eq, not_true_eq_false, if_false, bind, Except.bind, pure, Except.pure,
      hz1, hz2, if_neg (by omega : ¬ n = 0), dif_pos hch, hcv]
    have hk : List.replicate (n - w / 2) 0 ++ List.replicate w (1 / (w : ℝ)) ++ List.replicate (n - w / 2) 0
      = kern n w := rfl
    rw [hk]
    set xk := (fftProduct (List.replicate n 0 ++ v) (kern n w)).map XR.fin with hxk
    have hl : xk.length = 2 * n := by rw [hxk, List.length_map, hlen]
    obtain ⟨a, ha⟩ := npIndex_isOk (a := xk) (i := ((w / 2 : ℕ) : ℤ)) (by omega) (by omega)
    obtain ⟨b, hb⟩ := npIndex_isOk (a := xk) (i := ((w / 2 : ℕ) : ℤ) + 1) (by omega) (by omega)
    obtain ⟨c, hc⟩ := npIndex_isOk (a := xk) (i := (n : ℤ) - (w / 2 : ℕ) - 1) (by omega) (by omega)
    obtain ⟨d, hd⟩ := npIndex_isOk (a := xk) (i := (n : ℤ) - (w / 2 : ℕ) - 2) (by omega) (by omega)
    rw [ha]; simp only
    rw [hb]; simp only
    rw [hc]; simp only
    rw [hd]
    exact ⟨_, rfl⟩

/-- C156: the windows Python accepts and Matlab does not, with the same even number of observations -/
theorem C156_wrapped_windows {v : List ℝ} {w : ℕ} (hn : v.length % 2 = 0) (h0 : 0 < v.length) :
    ((∃ l, Model.fftsmooth (v.map XR.fin) w = .ok l) ∧ Matlab.smooth v w = none)
      ↔ w + 2 = 2 * v.length ∨ w = 2 * v.length := by
  have hm := C156_matlab_domain v w
  rw [C156_python_domain]
  constructor
  · rintro ⟨⟨-, h2, -, h4⟩, h5⟩
    rw [h5] at hm
    by_contra hc
    have : ∃ k : ℕ, (w : ℚ) = 2 * k ∧ k + 2 ≤ v.length := ⟨w / 2, by
      have : w = 2 * (w / 2) := by omega
      exact_mod_cast this, by omega⟩
    simpa using hm.2 this
  · intro h
    refine ⟨⟨hn, by omega, h0, by omega⟩, ?_⟩
    by_contra hc
    obtain ⟨k, hk, hk2⟩ := hm.1 (Option.isSome_iff_ne_none.2 hc)
    have : w = 2 * k := by exact_mod_cast hk
    omega

example : ([1, 2, 3, 5] : List ℝ).length % 2 = 0 ∧ 0 < ([1, 2, 3, 5] : List ℝ).length := by norm_num

/-! ### C157: merton_solution -/

/-- C157: `MertonSolution.m` adds a penalty that `merton_solution` lost in translation (C90): at every
finite `(A, sig)` the Matlab residuals are the Python residuals plus `9999999` times the squares of the
negative parts. They agree where neither is negative. -/
theorem C157_penalty (A sig : ℝ) (E D r d T sigE : XR) :
    Matlab.mertonSolution (.fin A, .fin sig) E D r d T sigE
      = ((Model.mertonSolution (.fin A, .fin sig) E D r d T sigE).1
          + .fin (9999999 * ((min sig 0) ^ 2 + (min A 0) ^ 2)),
        (Model.mertonSolution (.fin A, .fin sig) E D r d T sigE).2
          + .fin (9999999 * ((min sig 0) ^ 2 + (min A 0) ^ 2))) := by
  have hadd : ∀ (x : XR) (a b c e : ℝ), a + b = c + e → x + .fin a + .fin b = x + .fin c + .fin e := by
    intro x a b c e h
    cases x with
    | fin y => simp only [XR.fin_add, XR.fin_inj]; linarith
    | _ => rfl
  have hc : (9999999 : XR) = .fin 9999999 := by rw [XR.ofNat_def]
  have hlt : ∀ x : ℝ, (XR.fin x < 0 ↔ x < 0) := fun x => by rw [XR.zero_def, XR.fin_lt]
  unfold Matlab.mertonSolution Model.mertonSolution
  simp only [hlt]
  by_cases h1 : sig < 0 <;> by_cases h2 : A < 0
  · simp only [if_pos h1, if_pos h2, hc, XR.zero_def, XR.fin_sq, XR.fin_mul, XR.fin_add]
    rw [min_eq_left h1.le, min_eq_left h2.le]
    exact Prod.ext (hadd _ _ _ _ _ (by ring)) (hadd _ _ _ _ _ (by ring))
  · simp only [if_pos h1, if_neg h2, hc, XR.zero_def, XR.fin_sq, XR.fin_mul, XR.fin_add]
    rw [min_eq_left h1.le, min_eq_right (not_lt.1 h2)]
    exact Prod.ext (hadd _ _ _ _ _ (by ring)) (hadd _ _ _ _ _ (by ring))
  · simp only [if_neg h1, if_pos h2, hc, XR.zero_def, XR.fin_sq, XR.fin_mul, XR.fin_add]
    rw [min_eq_right (not_lt.1 h1), min_eq_left h2.le]
    exact Prod.ext (hadd _ _ _ _ _ (by ring)) (hadd _ _ _ _ _ (by ring))
  · simp only [if_neg h1, if_neg h2, hc, XR.zero_def, XR.fin_sq, XR.fin_mul, XR.fin_add]
    rw [min_eq_right (not_lt.1 h1), min_eq_right (not_lt.1 h2)]
    exact Prod.ext (hadd _ _ _ _ _ (by ring)) (hadd _ _ _ _ _ (by ring))

/-- C157: equal residuals when the candidate is not negative -/
theorem C157_port {A sig : ℝ} (hA : 0 ≤ A) (hs : 0 ≤ sig) (E D r d T sigE : XR) :
    Matlab.mertonSolution (.fin A, .fin sig) E D r d T sigE
      = Model.mertonSolution (.fin A, .fin sig) E D r d T sigE := by
  have h0 : ∀ x : XR, x + .fin 0 = x := by
    intro x
    cases x with
    | fin y => simp
    | _ => rfl
  rw [C157_penalty, min_eq_right hA, min_eq_right hs]
  norm_num [h0]

example : (0 : ℝ) ≤ 1.2 ∧ (0 : ℝ) ≤ 0.2 := by norm_num

/-! ### C158: rounding of the sort key -/

/-- C158: `round(x, 9)` in Matlab and `np.round(x, 9)` in Python differ only for numbers half-way between
two nine-digit decimals; for a non-negative one, `m + 1/2` units, they differ exactly when `m` is even, and
then by one unit. -/
theorem C158_rounding (x : ℝ) :
    ((∀ m : ℤ, x * 10 ^ 9 ≠ m + 1 / 2) → Matlab.round9 (.fin x) = Model.round9 (.fin x)) ∧
    ∀ m : ℤ, 0 ≤ x → x * 10 ^ 9 = m + 1 / 2 →
      Matlab.round9 (.fin x) = .fin ((m + 1 : ℝ) / 10 ^ 9) ∧
      Model.round9 (.fin x) = .fin ((if Even m then (m : ℝ) else m + 1) / 10 ^ 9) := by
  refine ⟨Matlab.round9_same, fun m hx hm => ⟨?_, ?_⟩⟩
  · have : ⌊x * 10 ^ 9 + 1 / 2⌋ = m + 1 := by
      rw [hm, Int.floor_eq_iff]; push_cast; constructor <;> linarith
    simp only [Matlab.round9, if_pos hx, this]
    push_cast; rfl
  · have hf : ⌊x * 10 ^ 9⌋ = m := by
      rw [hm, Int.floor_eq_iff]; constructor <;> linarith
    have hfr : Int.fract (x * 10 ^ 9) = 1 / 2 := by
      rw [Int.fract, hf, hm]; ring
    simp only [Model.round9, rint, hfr, lt_irrefl, if_false, hf]
    split_ifs <;> push_cast <;> rfl

example : (0 : ℝ) ≤ 5 / 10 ^ 10 ∧ (5 / 10 ^ 10 : ℝ) * 10 ^ 9 = (0 : ℤ) + 1 / 2 := by norm_num

/-! ### C159: one cohort -/

/-- the solver returns a promised yield, and it solves the equation -/
def YieldSolved (solve : FSolve) (p : CohortParam) (mu : ℝ) : Prop :=
  YieldFound solve p mu ∧ Model.findFaceValueIndiv (.fin mu) (.fin (p.bookF * Real.exp (mu * p.T))) (.fin (ival p))
    (.fin p.sig) (.fin p.T) (.fin p.r) (.fin p.d) = .fin 0

theorem yield_unique {solve solve' : FSolve} {p : CohortParam} {mu mu' : ℝ} (hv : ValidParam p)
    (h : YieldSolved solve p mu) (h' : YieldSolved solve' p mu') : mu = mu' :=
  (C111_promised_yield hv.bookF hv.sig hv.T).2 mu mu' h.2 h'.2

theorem mpath_eq (step : ℕ → XR) (c : ℕ) : Matlab.path step (c + 1) = cumPath (fun c => step (c + 1)) c := by
  induction c with
  | zero => rfl
  | succ c ih => rw [cumPath, ← ih]; rfl

theorem mf_eq (p : CohortParam) (N : ℕ) (w : Shocks) (i c : ℕ) :
    Matlab.f p N w i (c + 1) = cumPath (factorStep p N w i) c := mpath_eq _ c

theorem mfw_eq (p : CohortParam) (N : ℕ) (w : Shocks) (i c : ℕ) :
    Matlab.fw p N w i (c + 1) = cumPath (removedStep p N w i) c := mpath_eq _ c

theorem stepSign_eq {szfs : ℕ} (h : 0 < szfs) (s : ℕ) : Matlab.stepSign szfs s = shiftBlock szfs s := by
  unfold Matlab.stepSign shiftBlock
  have h1 : s / szfs = 0 ↔ s < szfs := by
    rw [Nat.div_eq_zero_iff]; omega
  by_cases c1 : s < szfs
  · rw [if_pos (h1.2 c1), if_pos c1]
  · rw [if_neg (fun e => c1 (h1.1 e)), if_neg c1]
    have h2 : s / szfs = 1 ↔ s < 2 * szfs := by
      rw [Nat.div_eq_iff h]; omega
    by_cases c2 : s < 2 * szfs
    · rw [if_pos (h2.2 c2), if_pos c2]
    · rw [if_neg (fun e => c2 (h2.1 e)), if_neg c2]

theorem colIndex_nat {cols z : ℕ} {c : ℝ} (hc : c = z) (h1 : 1 ≤ z) (h2 : z ≤ cols) : Matlab.colIndex cols c = some z := by
  have h : ∃ y : ℕ, c = y ∧ 1 ≤ y ∧ y ≤ cols := ⟨z, hc, h1, h2⟩
  rw [Matlab.colIndex, dif_pos h]
  have e : (z : ℝ) = (h.choose : ℝ) := hc.symm.trans h.choose_spec.1
  congr 1
  exact_mod_cast e.symm

theorem flatM_getD {m n : ℕ} (g : ℕ → ℕ → ℝ) {q : ℕ} (hq : q < m * n) :
    ((List.range (m * n)).map fun q => g (q % m) (q / m)).getD q 0 = g (q % m) (q / m) := by
  rw [List.getD_eq_getElem _ _ (by simpa using hq)]; simp

/-- keys that are apart sort alike with and without rounding -/
theorem argsort_apart {m n : ℕ} {ka : ℕ → ℕ → XR} {key : ℕ → ℕ → ℝ}
    (hk : ∀ i < m, ∀ s < n, ka i s = .fin (key i s)) (h : KeysApart m n key) :
    argsortStable (flatF m n ka) = argsortStable ((flatF m n ka).map Model.round9) := by
  have e : (flatF m n ka).map Model.round9
      = ((List.range (m * n)).map fun q => Spec.round9 (key (q % m) (q / m))).map XR.fin := by
    rw [flatF_fin hk, List.map_map, List.map_map, List.map_map]; rfl
  rw [e, flatF_fin hk]
  refine Matlab.argsort_fin_congr (by simp) fun a ha b hb => ?_
  have ha : a < m * n := by simpa using ha
  have hb : b < m * n := by simpa using hb
  rw [flatM_getD key ha, flatM_getD key hb, flatM_getD (fun i s => Spec.round9 (key i s)) ha,
    flatM_getD (fun i s => Spec.round9 (key i s)) hb]
  obtain ⟨a1, a2⟩ := mem_flat ha
  obtain ⟨b1, b2⟩ := mem_flat hb
  constructor
  · intro hh
    exact Matlab.round9_lt (h _ a1 _ a2 _ b1 _ b2 hh)
  · intro hh
    by_contra hc
    rcases (not_lt.1 hc).lt_or_eq with c | c
    · exact absurd (Matlab.round9_lt (h _ b1 _ b2 _ a1 _ a2 c)) (not_lt.2 hh.le)
    · rw [c] at hh; exact lt_irrefl _ hh

/-- keys without ties sort alike with both roundings -/
theorem argsort_noTies {m n : ℕ} {ka : ℕ → ℕ → XR} {key : ℕ → ℕ → ℝ}
    (hk : ∀ i < m, ∀ s < n, ka i s = .fin (key i s)) (h : NoTies m n key) :
    (flatF m n ka).map Matlab.round9 = (flatF m n ka).map Model.round9 := by
  unfold flatF
  rw [List.map_map, List.map_map]
  refine List.map_congr_left fun q hq => ?_
  obtain ⟨h1, h2⟩ := mem_flat (List.mem_range.1 hq)
  simp only [Function.comp]
  rw [hk _ h1 _ h2]
  exact Matlab.round9_same (h _ h1 _ h2)

/-- both conditional expectations on matrices -/
theorem condExp_both {m n : ℕ} (hpos : 0 < m * n) (h40 : m * n % 40 = 0) {ka pa : ℕ → ℕ → XR} {key pay : ℕ → ℕ → ℝ}
    {key' : List XR}
    (hk : ∀ i < m, ∀ s < n, ka i s = .fin (key i s)) (hp : ∀ i < m, ∀ s < n, pa i s = .fin (pay i s))
    (hl : key'.length = m * n) (hind : argsortStable key' = argsortStable ((flatF m n ka).map Model.round9)) :
    ∃ l, Model.condExp (flatF m n ka) (flatF m n pa) (m * n / 20) = .ok l
      ∧ Matlab.condExp key' (flatF m n pa) (((m * n : ℕ) : ℚ) / 20) = some l
      ∧ ∀ i < m, ∀ s < n, unflatF m l i s = .fin (condMean m n key pay i s) := by
  obtain ⟨l, h1, -, h3⟩ := condExp_flat hpos (by omega) (by omega) hk hp
  have hlv : ((List.range (m * n)).map fun q => pay (q % m) (q / m)).length = m * n := by simp
  obtain ⟨k, hkk⟩ : ∃ k, m * n = 40 * k := ⟨m * n / 40, by omega⟩
  obtain ⟨l', h1', h2'⟩ := Matlab.condExp_same (key := flatF m n ka) (key' := key') (k := k) (win := ((m * n : ℕ) : ℚ) / 20)
    (v := (List.range (m * n)).map fun q => pay (q % m) (q / m)) (by rw [hlv]; simp [flatF]) (by rw [hlv, hl]) hind
    (by rw [hlv]; omega) (by rw [hlv]; omega) (by rw [hkk]; push_cast; ring)
  rw [← flatF_fin hp, show 2 * k = m * n / 20 by omega, h1] at h1'
  rw [← flatF_fin hp] at h2'
  cases h1'
  exact ⟨l, h1, h2', h3⟩

/-- C159: `mod_single_cohort_computation` returns what `ModSingleCohortComputation.m` returns, when both
solvers solve the yield equation, the number of observations is a multiple of 40, there are at least two
simulations and no two different keys (asset values at `t+H`) are closer than `10⁻⁹`. The volatilities
agree unless a stepped value is negative. -/
theorem C159_single_port {solve solve' : FSolve} {fs : List ℝ} {p : CohortParam} {N HN Nsim2 : ℕ} {w : Shocks}
    {mu mu' : ℝ} (h : SingleInput fs p N HN Nsim2 w) (hmu : YieldSolved solve p mu) (hmu' : YieldSolved solve' p mu')
    (h2 : 2 ≤ Nsim2) (h40 : Nsim2 * (3 * fs.length) % 40 = 0)
    (hap : KeysApart Nsim2 (3 * fs.length) (singleKey fs p N HN w)) :
    ∃ out mout, singleCohort solve fs p N Nsim2 w = .ok out ∧ Matlab.single solve' fs p N Nsim2 w = some mout
      ∧ SameResults Nsim2 fs.length out mout.re
      ∧ (∀ s < fs.length, SameVol (∑ i ∈ Finset.range Nsim2, singleLoan fs p N HN Nsim2 w mu i (fs.length + s))
          (∑ i ∈ Finset.range Nsim2, singleLoan fs p N HN Nsim2 w mu i (2 * fs.length + s))
          (out.sigLt s) (mout.re.sigLt s) (mout.sigLtIm s))
      ∧ ∀ s < fs.length, SameVol
          (∑ i ∈ Finset.range Nsim2, (singleLoan fs p N HN Nsim2 w mu i (fs.length + s)
            - min p.D (singleLoan fs p N HN Nsim2 w mu i (fs.length + s) * Real.exp (-p.y * p.H))))
          (∑ i ∈ Finset.range Nsim2, (singleLoan fs p N HN Nsim2 w mu i (2 * fs.length + s)
            - min p.D (singleLoan fs p N HN Nsim2 w mu i (2 * fs.length + s) * Real.exp (-p.y * p.H))))
          (out.sigEt s) (mout.re.sigEt s) (mout.sigEtIm s) := by
  have hv := h.valid
  have hmm := yield_unique hv hmu hmu'
  subst hmm
  have hm1 : (promised solve p (.fin (ival p))).1 = .fin mu := hmu.1
  have hm2 : (promised solve' p (.fin (ival p))).1 = .fin mu := hmu'.1
  have hFpos : 0 < p.bookF * Real.exp (mu * p.T) := mul_pos hv.bookF (Real.exp_pos _)
  have hl : 0 < fs.length := List.length_pos_of_ne_nil h.states
  have hpos : 0 < Nsim2 * (3 * fs.length) := Nat.mul_pos h.sims (by omega)
  have hfsa : ∀ s, XR.fin ((fs ++ fs ++ fs).getD s 0) * .fin (sigf p) * XR.sqrt (.fin p.T)
      + .fin (sigf p) / 10 * shiftBlock fs.length s = .fin (singleShock fs p s) := by
    intro s
    rw [XR.fin_sqrt hv.T.le, shiftBlock_fin, XR.ofNat_def, XR.fin_div _ (by norm_num : (OfNat.ofNat 10 : ℝ) ≠ 0),
      XR.fin_mul, XR.fin_mul, XR.fin_mul, XR.fin_add]
    rfl
  have hF := promised_fin hm1
  have hka : ∀ i < Nsim2, ∀ s < 3 * fs.length,
      XR.exp (.fin (logFactor p N w i 0 HN) + .fin (singleShock fs p s) + .fin (ival p))
        * XR.exp (0.5 * (1 - .fin p.rho) * .fin p.H * XR.sq (.fin p.sig)) = .fin (singleKey fs p N HN w i s) := by
    intro i _ s _
    rw [half_sci, XR.one_def]
    simp only [XR.fin_sub, XR.fin_add, XR.fin_mul, XR.fin_sq, XR.fin_exp, singleKey, XR.fin_inj]
    congr 2; ring
  obtain ⟨l, hl1, hl2, hl3⟩ := condExp_both hpos h40
    (ka := fun i s => XR.exp (.fin (logFactor p N w i 0 HN) + .fin (singleShock fs p s) + .fin (ival p))
      * XR.exp (0.5 * (1 - .fin p.rho) * .fin p.H * XR.sq (.fin p.sig)))
    (pa := fun i s => Model.loanPayoff (.fin (p.bookF * Real.exp (mu * p.T)))
      (.fin (logFactor p N w i 0 N) + .fin (singleShock fs p s)) (.fin (ival p)) (.fin p.rho) (.fin p.sig) (.fin p.T))
    (key := singleKey fs p N HN w) (pay := singlePay fs p N w mu) hka
    (by
      intro i _ s _
      rw [XR.fin_add, loanPayoff_repay hv hFpos]; rfl) (by simp [flatF]) (argsort_apart hka hap)
  have hLH : ∀ i < Nsim2, ∀ s < 3 * fs.length,
      unflatF Nsim2 l i s * XR.exp (-.fin p.r * (.fin p.T - .fin p.H)) = .fin (singleLoan fs p N HN Nsim2 w mu i s) := by
    intro i hi s hs
    rw [hl3 i hi s hs]; rfl
  have heq : singleCohort solve fs p N Nsim2 w = .ok (bankTail p Nsim2 fs.length
      (fun i s => unflatF Nsim2 l i s * XR.exp (-.fin p.r * (.fin p.T - .fin p.H)))
      (fun _ _ => 1 * .fin (p.bookF * Real.exp (mu * p.T)) * XR.exp (-.fin p.r * (.fin p.T - .fin p.H)))
      (fun i s => XR.exp (.fin (logFactor p N w i 0 HN) + .fin (singleShock fs p s) + .fin (ival p))
        * XR.exp (0.5 * (1 - .fin p.rho) * .fin p.H * XR.sq (.fin p.sig)))
      (fun _ s => XR.exp (.fin (singleShock fs p s) + .fin (ival p)))
      (.fin mu) (.fin (p.bookF * Real.exp (mu * p.T)))) := by
    unfold singleCohort
    rw [ival_fin hv, sigf_fin hv, horizonSteps_ok (z := (HN : ℤ)) hv.T.ne' (by push_cast; exact h.horizon)]
    simp only [bind, Except.bind, pure, Except.pure, if_neg h.steps.ne', h.rows, ne_eq, not_true_eq_false, if_false,
      pyCol_ok (show N < w.cols + 1 by have := h.cols; omega), pyCol_ok (show HN < w.cols + 1 by have := h.horizon_le; omega),
      fs3_length, factorPath_fin hv h.steps, hfsa, hm1, hF, hl1]
  have hmu2 : solve' (fun m => Matlab.findFaceValueIndiv m (.fin p.bookF * XR.exp (m * .fin p.T)) (.fin (ival p))
      (.fin p.sig) (.fin p.T) (.fin p.r) (.fin p.d)) (.fin p.r + 0.01) = .fin mu := hmu'.1
  have hF2 : XR.fin p.bookF * XR.exp (.fin mu * .fin p.T) = .fin (p.bookF * Real.exp (mu * p.T)) := rfl
  have hlp : Matlab.loanPayoff = Model.loanPayoff := rfl
  have hmeq : Matlab.single solve' fs p N Nsim2 w = Matlab.tail p Nsim2 fs.length
      (fun i s => unflatF Nsim2 l i s * XR.exp (-.fin p.r * (.fin p.T - .fin p.H)))
      (fun _ _ => 1 * .fin (p.bookF * Real.exp (mu * p.T)) * XR.exp (-.fin p.r * (.fin p.T - .fin p.H)))
      (fun i s => XR.exp (.fin (logFactor p N w i 0 HN) + .fin (singleShock fs p s) + .fin (ival p))
        * XR.exp (0.5 * (1 - .fin p.rho) * .fin p.H * XR.sq (.fin p.sig)))
      (fun _ s => XR.exp (.fin (singleShock fs p s) + .fin (ival p)))
      (.fin mu) (.fin (p.bookF * Real.exp (mu * p.T))) := by
    unfold Matlab.single
    rw [ival_fin hv, sigf_fin hv]
    simp only [bind, Option.bind, pure, if_neg (show ¬ (p.T = 0 ∨ N = 0) from not_or.2 ⟨hv.T.ne', h.steps.ne'⟩), h.rows,
      ne_eq, not_true_eq_false, if_false,
      colIndex_nat (show (N : ℝ) + 1 = ((N + 1 : ℕ) : ℝ) by push_cast; ring) (by omega)
        (show N + 1 ≤ w.cols + 1 by have := h.cols; omega),
      colIndex_nat (show (1 : ℝ) + p.H * ((N : ℝ) / p.T) = ((HN + 1 : ℕ) : ℝ) by rw [h.horizon]; push_cast; ring)
        (by omega) (show HN + 1 ≤ w.cols + 1 by have := h.horizon_le; omega),
      fs3_length, mf_eq, stepSign_eq hl, factorPath_fin hv h.steps, hfsa, hmu2, hF2, hlp, hl2]
  obtain ⟨o, ho, hs1, hs2, hs3⟩ := Matlab.tail_same h2 hLH
  exact ⟨_, o, heq, hmeq.trans ho, hs1, hs2, hs3⟩

/-! ### Concrete cases of the theorems above -/

example := C156_port (v := [1, 2, 4, 8]) (k := 2) (by simp) (by simp)
example := C157_port (A := 1) (sig := 0.2) (by norm_num) (by norm_num) 0.1 0.7 0.01 0.002 5 0.6
/-- Six observations and a window of ten: Python answers, Matlab stops. -/
example : (∃ l, Model.fftsmooth (([1, 2, 3, 4, 5, 6] : List ℝ).map XR.fin) 10 = .ok l) ∧
    Matlab.smooth [1, 2, 3, 4, 5, 6] (10 : ℕ) = none :=
  (C156_wrapped_windows (v := [1, 2, 3, 4, 5, 6]) (w := 10) (by simp) (by simp)).2 (by simp)

end
end Frds.Props
