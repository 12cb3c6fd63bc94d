import Verif.Basic.LstsqCut
import Verif.Props.KyleLambda
import Verif.Props.Ses

/-! C190: the rank cut-off of `np.linalg.lstsq` in Kyle's lambda and the systemic expected shortfall. -/
namespace Frds.Props
noncomputable section
open Frds Frds.Model Classical
set_option linter.unusedSimpArgs false

namespace LstsqCut

/-- a routine that is right without a cut-off and agrees with `L` where `L` is right -/
theorem transfer (L : LstsqFn) : ∃ L' : LstsqFn, L'.Correct ∧
    ∀ n rows y, rows.length = y.length → IsLstsq rows y (L n rows y) → L' n rows y = L n rows y := by
  obtain ⟨C, hC⟩ := exists_correct_lstsq
  refine ⟨fun n rows y => if IsLstsq rows y (L n rows y) then L n rows y else C n rows y, ?_, ?_⟩
  · intro n rows y hl
    by_cases h : IsLstsq rows y (L n rows y)
    · simp only [if_pos h]; exact h
    · simp only [if_neg h]; exact hC n rows y hl
  · intro n rows y _ h
    simp only [if_pos h]

theorem rc_nonneg (M N : ℕ) : 0 ≤ rcondDefault M N := by unfold rcondDefault; positivity

/-- one column: nothing is ever cut off -/
theorem one_column {L : LstsqFn} (hL : L.CorrectCut) (rows : List (Fin 1 → ℝ)) (y : List ℝ) (hl : rows.length = y.length)
    (hn : rows.length < 2 ^ 52) : IsLstsq rows y (L 1 rows y) := by
  obtain ⟨s, v, hs, ho, hg, hb⟩ := hL 1 rows y hl
  refine uncut hl s v hs ho hg hb (rc_nonneg _ _) fun i k h => ?_
  rw [Fin.eq_zero i, Fin.eq_zero k] at h
  rw [Fin.eq_zero i]
  have hrc : rcondDefault rows.length 1 < 1 := by
    unfold rcondDefault
    have : ((max rows.length 1 : ℕ) : ℝ) < 2 ^ 52 := by
      have h : max rows.length 1 < 2 ^ 52 := by omega
      exact_mod_cast h
    have h2 : (0 : ℝ) < 2 ^ 52 := by positivity
    rw [one_div, inv_mul_lt_iff₀ h2, mul_one]
    exact this
  nlinarith [hs 0]

/-- any number of columns: nothing is cut off if every direction has an image longer than the cut-off times the Frobenius norm -/
theorem conditioned {L : LstsqFn} (hL : L.CorrectCut) {n : ℕ} (rows : List (Fin n → ℝ)) (y : List ℝ) (hl : rows.length = y.length)
    (h : ∀ d : Fin n → ℝ, ∑ j, d j ^ 2 = 1 →
      rcondDefault rows.length n ^ 2 * (rows.map fun r => ∑ j, r j ^ 2).sum < (rows.map fun r => dotRow r d ^ 2).sum) :
    IsLstsq rows y (L n rows y) := by
  obtain ⟨s, v, hs, ho, hg, hb⟩ := hL n rows y hl
  refine uncut hl s v hs ho hg hb (rc_nonneg _ _) fun i k hik => ?_
  exfalso
  have hunit : ∀ i, ∑ j, v i j ^ 2 = 1 := by
    intro i
    have := ho i i
    rw [if_pos rfl] at this
    rw [← this]
    exact Finset.sum_congr rfl fun j _ => by ring
  have h1 := h (v i) (hunit i)
  rw [← sv_sq ho hg i] at h1
  have h2 := sv_le (rows := rows) (hunit k)
  rw [← sv_sq ho hg k] at h2
  have h3 : s i ^ 2 ≤ (rcondDefault rows.length n * s k) ^ 2 := pow_le_pow_left₀ (hs i) hik 2
  have h4 : rcondDefault rows.length n ^ 2 * s k ^ 2 ≤ rcondDefault rows.length n ^ 2 * (rows.map fun r => ∑ j, r j ^ 2).sum :=
    mul_le_mul_of_nonneg_left h2 (sq_nonneg _)
  rw [mul_pow] at h3
  linarith

/-- three columns: the product of the squared singular values is the determinant of the moment matrix -/
theorem det3 {rows : List (Fin 3 → ℝ)} {s : Fin 3 → ℝ} {v : Fin 3 → Fin 3 → ℝ}
    (ho : ∀ i k, ∑ j, v i j * v k j = if i = k then 1 else 0)
    (hg : ∀ i j, gramMul rows (v i) j = s i ^ 2 * v i j) (G : Matrix (Fin 3) (Fin 3) ℝ)
    (hG : ∀ j k, G j k = (rows.map fun r => r j * r k).sum) : s 0 ^ 2 * s 1 ^ 2 * s 2 ^ 2 = G.det := by
  have hmul : ∀ (d : Fin 3 → ℝ) j, gramMul rows d j = ∑ k, d k * G k j := by
    intro d j
    simp only [hG, gramMul]
    clear hG hg
    induction rows with
    | nil => simp
    | cons r t ih =>
      simp only [List.map_cons, List.sum_cons, mul_add, Finset.sum_add_distrib, ← ih]
      congr 1
      rw [dotRow, Finset.mul_sum]
      exact Finset.sum_congr rfl fun k _ => by ring
  let V : Matrix (Fin 3) (Fin 3) ℝ := Matrix.of v
  have h1 : V * V.transpose = 1 := by
    ext i k
    rw [Matrix.mul_apply, Matrix.one_apply]
    exact ho i k
  have hdet : V.det ≠ 0 := by
    intro h
    have := congrArg Matrix.det h1
    rw [Matrix.det_mul, h, zero_mul, Matrix.det_one] at this
    exact zero_ne_one this
  have h2 : V * G = Matrix.diagonal (fun i => s i ^ 2) * V := by
    ext i j
    rw [Matrix.mul_apply, Matrix.diagonal_mul]
    exact (hmul (v i) j).symm.trans (hg i j)
  have h3 := congrArg Matrix.det h2
  rw [Matrix.det_mul, Matrix.det_mul, Matrix.det_diagonal, mul_comm (Finset.prod _ _)] at h3
  have h4 := mul_left_cancel₀ hdet h3
  rw [h4, Fin.prod_univ_three]

/-- three columns: nothing is cut off if the determinant of the moment matrix is large enough -/
theorem det_conditioned {L : LstsqFn} (hL : L.CorrectCut) (rows : List (Fin 3 → ℝ)) (y : List ℝ) (hl : rows.length = y.length)
    (G : Matrix (Fin 3) (Fin 3) ℝ) (hG : ∀ j k, G j k = (rows.map fun r => r j * r k).sum)
    (h : rcondDefault rows.length 3 ^ 2 * (rows.map fun r => ∑ j, r j ^ 2).sum ^ 3 < G.det) :
    IsLstsq rows y (L 3 rows y) := by
  obtain ⟨s, v, hs, ho, hg, hb⟩ := hL 3 rows y hl
  obtain ⟨T, hT⟩ : ∃ T, T = (rows.map fun r => ∑ j, r j ^ 2).sum := ⟨_, rfl⟩
  have hle : ∀ k, s k ^ 2 ≤ T := by
    intro k
    rw [sv_sq ho hg k, hT]
    apply sv_le
    have := ho k k
    rw [if_pos rfl] at this
    rw [← this]
    exact Finset.sum_congr rfl fun j _ => by ring
  have hT0 : 0 ≤ T := le_trans (sq_nonneg _) (hle 0)
  refine uncut hl s v hs ho hg hb (rc_nonneg _ _) fun i k hik => ?_
  exfalso
  rw [← det3 ho hg G hG, ← hT] at h
  have h3 : s i ^ 2 ≤ rcondDefault rows.length 3 ^ 2 * T := by
    have := pow_le_pow_left₀ (hs i) hik 2
    rw [mul_pow] at this
    exact this.trans (mul_le_mul_of_nonneg_left (hle k) (sq_nonneg _))
  have hprod : ∀ a b c : ℝ, 0 ≤ a → 0 ≤ b → 0 ≤ c → a ≤ rcondDefault rows.length 3 ^ 2 * T → b ≤ T → c ≤ T →
      a * b * c ≤ rcondDefault rows.length 3 ^ 2 * T ^ 3 := by
    intro a b c ha hb hc h1 h2 h3
    calc a * b * c ≤ rcondDefault rows.length 3 ^ 2 * T * T * T :=
          mul_le_mul (mul_le_mul h1 h2 hb (mul_nonneg (sq_nonneg _) hT0)) h3 hc
            (mul_nonneg (mul_nonneg (sq_nonneg _) hT0) hT0)
      _ = _ := by ring
  have q : ∀ k, 0 ≤ s k ^ 2 := fun k => sq_nonneg _
  fin_cases i
  · have := hprod _ _ _ (q 0) (q 1) (q 2) h3 (hle 1) (hle 2)
    linarith
  · have := hprod _ _ _ (q 1) (q 0) (q 2) h3 (hle 0) (hle 2)
    linarith
  · have := hprod _ _ _ (q 2) (q 0) (q 1) h3 (hle 0) (hle 1)
    linarith

end LstsqCut
open LstsqCut

/-- C190. With the rank cut-off of `np.linalg.lstsq` (singular values at most `2^-52 max(M, N)` times the largest count as
zero), `kyle_lambda` of fewer than `2^52` observations is still exactly the least-squares slope. -/
theorem C190_kyle {L : LstsqFn} (hL : L.CorrectCut) (l : List Obs) (hn : l.length < 2 ^ 52) :
    kyleLambda L (l.map Obs.ret) (l.map Obs.vol)
        = .ok (1000000 * ((l.map fun o => o.vol * o.ret).sum / (l.map fun o => o.vol ^ 2).sum)) ∧
      ∀ a', sse l ((l.map fun o => o.vol * o.ret).sum / (l.map fun o => o.vol ^ 2).sum) ≤ sse l a' := by
  obtain ⟨L', hL', hagree⟩ := transfer L
  have e : kyleLambda L' (l.map Obs.ret) (l.map Obs.vol) = kyleLambda L (l.map Obs.ret) (l.map Obs.vol) := by
    unfold kyleLambda
    simp only [List.length_map]
    rw [hagree 1 _ _ (by simp) (one_column hL _ _ (by simp) (by simpa using hn))]
  have hc := kyle_closed hL' l
  refine ⟨by rw [← e]; exact hc, ?_⟩
  obtain ⟨a, ha, hmin, -, -⟩ := C19_least_squares hL' l
  rw [hc] at ha
  have e2 : a = (l.map fun o => o.vol * o.ret).sum / (l.map fun o => o.vol ^ 2).sum := by
    injection ha with ha
    linarith
  rw [← e2]; exact hmin

/-- no direction of the regressors (1, MES, LVG) is negligible against their total size at the precision of the machine -/
def WellConditioned (l : List Firm) : Prop :=
  ∀ a b c : ℝ, a ^ 2 + b ^ 2 + c ^ 2 = 1 →
    (1 / 2 ^ 52 * ((max l.length 3 : ℕ) : ℝ)) ^ 2 * (l.map fun f => (1 : ℝ) + f.mes ^ 2 + f.lvg ^ 2).sum
      < (l.map fun f => (a + b * f.mes + c * f.lvg) ^ 2).sum

/-- C190. On a well-conditioned training sample the systemic expected shortfall is, with the cut-off, the one of the unique
least-squares regression. -/
theorem C190_ses {L : LstsqFn} (hL : L.CorrectCut) (l : List Firm) (hc : WellConditioned l) (m v : ℝ) :
    ∃ a b c : ℝ, (∀ a' b' c', sesRss l a b c ≤ sesRss l a' b' c') ∧
      (∀ a' b' c', (∀ x y z, sesRss l a' b' c' ≤ sesRss l x y z) → a' = a ∧ b' = b ∧ c' = c) ∧
      sesOf L l m v = .ok (.fin (b * m + c * v) / .fin (b + c)) := by
  obtain ⟨L', hL', hagree⟩ := transfer L
  have hlen : (design l).length = (l.map Firm.ses).length := by simp [design]
  have hcond : ∀ d : Fin 3 → ℝ, ∑ j, d j ^ 2 = 1 → rcondDefault (design l).length 3 ^ 2 *
      ((design l).map fun r => ∑ j, r j ^ 2).sum < ((design l).map fun r => dotRow r d ^ 2).sum := by
    intro d hd
    have h := hc (d 0) (d 1) (d 2) (by rw [← hd, Fin.sum_univ_three])
    have e1 : ((design l).map fun r => ∑ j, r j ^ 2).sum = (l.map fun f => (1 : ℝ) + f.mes ^ 2 + f.lvg ^ 2).sum := by
      rw [design, List.map_map]
      congr 1
      apply List.map_congr_left
      intro f _
      simp [Fin.sum_univ_three]
    have e2 : ((design l).map fun r => dotRow r d ^ 2).sum = (l.map fun f => (d 0 + d 1 * f.mes + d 2 * f.lvg) ^ 2).sum := by
      rw [design, List.map_map]
      congr 1
      apply List.map_congr_left
      intro f _
      simp only [Function.comp, dotRow, Fin.sum_univ_three]
      simp
      ring
    rw [e1, e2]
    unfold rcondDefault
    rw [show (design l).length = l.length by simp [design]]
    exact h
  have hls := conditioned hL (design l) (l.map Firm.ses) hlen hcond
  have hfull : FullRank (design l) := by
    intro d hd
    by_contra hne
    have hq : 0 < ∑ j, d j ^ 2 := by
      refine lt_of_le_of_ne (Finset.sum_nonneg fun j _ => sq_nonneg _) fun h => hne ?_
      rw [eq_comm, Finset.sum_eq_zero_iff_of_nonneg (fun j _ => sq_nonneg _)] at h
      funext j
      exact pow_eq_zero_iff two_ne_zero |>.mp (h j (Finset.mem_univ j))
    have hu := hcond (fun j => d j / Real.sqrt (∑ j, d j ^ 2)) (by
      simp only [div_pow, ← Finset.sum_div]
      rw [Real.sq_sqrt hq.le, div_self hq.ne'])
    have hz : ((design l).map fun r => dotRow r (fun j => d j / Real.sqrt (∑ j, d j ^ 2)) ^ 2).sum = 0 := by
      apply List.sum_eq_zero
      intro x hx
      obtain ⟨r, hr, rfl⟩ := List.mem_map.mp hx
      have : dotRow r (fun j => d j / Real.sqrt (∑ j, d j ^ 2)) = dotRow r d / Real.sqrt (∑ j, d j ^ 2) := by
        simp only [dotRow, Finset.sum_div]
        exact Finset.sum_congr rfl fun j _ => by ring
      rw [this, hd r hr]; simp
    rw [hz] at hu
    have hn : 0 ≤ ((design l).map fun r => ∑ j, r j ^ 2).sum := List.sum_nonneg (by
      intro x hx
      obtain ⟨r, _, rfl⟩ := List.mem_map.mp hx
      exact Finset.sum_nonneg fun j _ => sq_nonneg _)
    nlinarith [mul_nonneg (sq_nonneg (rcondDefault (design l).length 3)) hn]
  have hbeta := sesOf_eq L l m v
  refine ⟨L 3 (design l) (l.map Firm.ses) 0, L 3 (design l) (l.map Firm.ses) 1, L 3 (design l) (l.map Firm.ses) 2, ?_, ?_, hbeta⟩
  · intro a' b' c'
    have := hls.min ![a', b', c']
    rwa [rss_design, rss_design] at this
  · intro a' b' c' h
    have hLS : IsLS (design l) (l.map Firm.ses) ![a', b', c'] := by
      intro b
      rw [rss_design, rss_design]
      exact h _ _ _
    have := isLS_unique hlen hfull hLS hls.min
    exact ⟨congrFun this 0, congrFun this 1, congrFun this 2⟩

/-- C190. A criterion in terms of the sample's sums: if the determinant of the moment matrix of (1, MES, LVG) exceeds the squared
cut-off times the cube of its trace, nothing is cut off, and the estimate is that of a least-squares regression. -/
theorem C190_ses_det {L : LstsqFn} (hL : L.CorrectCut) (l : List Firm) (n sm sl smm sml sll : ℝ)
    (hn : n = l.length) (hsm : sm = (l.map fun f => f.mes).sum) (hsl : sl = (l.map fun f => f.lvg).sum)
    (hmm : smm = (l.map fun f => f.mes ^ 2).sum) (hml : sml = (l.map fun f => f.mes * f.lvg).sum)
    (hll : sll = (l.map fun f => f.lvg ^ 2).sum)
    (h : (1 / 2 ^ 52 * ((max l.length 3 : ℕ) : ℝ)) ^ 2 * (n + smm + sll) ^ 3
      < n * (smm * sll - sml ^ 2) - sm * (sm * sll - sml * sl) + sl * (sm * sml - smm * sl)) (m v : ℝ) :
    ∃ a b c : ℝ, (∀ a' b' c', sesRss l a b c ≤ sesRss l a' b' c') ∧
      sesOf L l m v = .ok (.fin (b * m + c * v) / .fin (b + c)) := by
  have hlen : (design l).length = (l.map Firm.ses).length := by simp [design]
  have hsum : ∀ F : (Fin 3 → ℝ) → ℝ, ((design l).map F).sum = (l.map fun f => F ![1, f.mes, f.lvg]).sum := by
    intro F
    rw [design, List.map_map]
    rfl
  have e1 : (l.map fun _ => (1 : ℝ)).sum = n := by rw [hn]; simp
  have hls := det_conditioned hL (design l) (l.map Firm.ses) hlen !![n, sm, sl; sm, smm, sml; sl, sml, sll] (by
      intro j k
      rw [hsum]
      fin_cases j <;> fin_cases k <;> simp [hn, hsm, hsl, hmm, hml, hll, sq, mul_comm]) (by
      rw [hsum, Matrix.det_fin_three]
      have e2 : (l.map fun f => ∑ j, (![1, f.mes, f.lvg] : Fin 3 → ℝ) j ^ 2).sum = n + smm + sll := by
        simp only [Fin.sum_univ_three]
        simp only [Matrix.cons_val_zero, Matrix.cons_val_one, Matrix.cons_val_two, Matrix.head_cons, Matrix.tail_cons, Matrix.cons_val]
        rw [hmm, hll, ← e1, ← List.sum_map_add, ← List.sum_map_add]
        simp
      rw [e2]
      unfold rcondDefault
      rw [show (design l).length = l.length by simp [design]]
      refine lt_of_lt_of_eq h ?_
      simp
      ring)
  refine ⟨L 3 (design l) (l.map Firm.ses) 0, L 3 (design l) (l.map Firm.ses) 1, L 3 (design l) (l.map Firm.ses) 2, ?_, sesOf_eq L l m v⟩
  intro a' b' c'
  have := hls.min ![a', b', c']
  rwa [rss_design, rss_design] at this

/-- four firms with uncorrelated MES `±p` and LVG `±q` -/
def fourFirms (p q y1 y2 y3 y4 : ℝ) : List Firm := [⟨p, q, y1⟩, ⟨-p, q, y2⟩, ⟨p, -q, y3⟩, ⟨-p, -q, y4⟩]

/-- C190. The cut-off is felt when leverage is of the order of `2^50` times everything else (or MES and the constant of the
order of its inverse): although the regressors are linearly independent and even uncorrelated, the regression drops the
constant and MES, and the estimate is the firm's leverage, whatever its MES and whatever the training firms' shortfalls are
(as long as they vary with leverage at all). -/
theorem C190_ses_cut {L : LstsqFn} (hL : L.CorrectCut) (p q y1 y2 y3 y4 m v : ℝ) (hp : 0 < p) (hq1 : 2 ^ 50 ≤ q) (hq2 : 2 ^ 50 * p ≤ q)
    (hy : y1 + y2 ≠ y3 + y4) :
    Regular (fourFirms p q y1 y2 y3 y4) ∧ sesOf L (fourFirms p q y1 y2 y3 y4) m v = .ok (.fin v) := by
  have hq : 0 < q := lt_of_lt_of_le (by positivity) hq1
  constructor
  · intro a b c h
    have h1 := h ⟨p, q, y1⟩ (by simp [fourFirms])
    have h2 := h ⟨-p, q, y2⟩ (by simp [fourFirms])
    have h3 := h ⟨p, -q, y3⟩ (by simp [fourFirms])
    have h4 := h ⟨-p, -q, y4⟩ (by simp [fourFirms])
    simp only at h1 h2 h3 h4
    have hb : b * p = 0 := by linarith
    have hc : c * q = 0 := by linarith
    refine ⟨by linarith, ?_, ?_⟩
    · rcases mul_eq_zero.mp hb with h | h
      · exact h
      · exact absurd h hp.ne'
    · rcases mul_eq_zero.mp hc with h | h
      · exact h
      · exact absurd h hq.ne'
  · rw [sesOf_eq]
    obtain ⟨rows, hrows⟩ : ∃ rows, rows = design (fourFirms p q y1 y2 y3 y4) := ⟨_, rfl⟩
    obtain ⟨y, hyy⟩ : ∃ y, y = (fourFirms p q y1 y2 y3 y4).map Firm.ses := ⟨_, rfl⟩
    have hlen : rows.length = y.length := by rw [hrows, hyy]; simp [design]
    have hM : rows.length = 4 := by rw [hrows]; simp [design, fourFirms]
    obtain ⟨s, u, hs, ho, hg, hb⟩ := hL 3 rows y hlen
    have hgram : ∀ d : Fin 3 → ℝ, gramMul rows d 0 = 4 * d 0 ∧ gramMul rows d 1 = 4 * p ^ 2 * d 1 ∧ gramMul rows d 2 = 4 * q ^ 2 * d 2 := by
      intro d
      rw [hrows]
      simp only [gramMul, design, fourFirms, List.map_cons, List.map_nil, List.sum_cons, List.sum_nil, dotRow, Fin.sum_univ_three]
      simp
      refine ⟨?_, ?_, ?_⟩ <;> ring
    have htd : ∀ d : Fin 3 → ℝ, targetDot rows y d = (y1 + y2 + y3 + y4) * d 0 + p * (y1 - y2 + y3 - y4) * d 1 + q * (y1 + y2 - y3 - y4) * d 2 := by
      intro d
      rw [hrows, hyy]
      simp only [targetDot, design, fourFirms, List.map_cons, List.map_nil, List.zipWith_cons_cons, List.zipWith_nil_right, List.sum_cons, List.sum_nil, dotRow, Fin.sum_univ_three]
      simp
      ring
    have hrc : rcondDefault rows.length 3 = 1 / 2 ^ 50 := by
      rw [hM]; unfold rcondDefault; norm_num
    have hq4 : 1 < q := lt_of_lt_of_le (by norm_num) hq1
    have hpq : p < q := by
      refine lt_of_lt_of_le ?_ hq2
      nlinarith [hp]
    -- the components of a singular vector
    have hcomp : ∀ i, (s i ^ 2 = 4 * q ^ 2 ∧ u i 0 = 0 ∧ u i 1 = 0) ∨ (u i 2 = 0 ∧ (s i ≤ 2 ∨ s i ≤ 2 * p)) := by
      intro i
      have g0 := hg i 0
      have g1 := hg i 1
      have g2 := hg i 2
      rw [(hgram _).1] at g0
      rw [(hgram _).2.1] at g1
      rw [(hgram _).2.2] at g2
      by_cases h2 : u i 2 = 0
      · right
        refine ⟨h2, ?_⟩
        by_cases h0 : u i 0 = 0
        · right
          have h1 : u i 1 ≠ 0 := by
            intro h1
            have := ho i i
            rw [if_pos rfl, Fin.sum_univ_three, h0, h1, h2] at this
            norm_num at this
          have : s i ^ 2 = 4 * p ^ 2 := by
            have := mul_right_cancel₀ h1 g1; linarith
          exact le_of_eq ((pow_left_inj₀ (hs i) (by positivity) two_ne_zero).mp (by rw [this]; ring))
        · left
          have : s i ^ 2 = 4 := by
            have := mul_right_cancel₀ h0 g0; linarith
          exact le_of_eq ((pow_left_inj₀ (hs i) (by positivity) two_ne_zero).mp (by rw [this]; norm_num))
      · left
        have hsq : s i ^ 2 = 4 * q ^ 2 := by
          have := mul_right_cancel₀ h2 g2; linarith
        refine ⟨hsq, ?_, ?_⟩
        · rw [hsq] at g0
          by_contra h0
          have := mul_right_cancel₀ h0 g0
          nlinarith
        · rw [hsq] at g1
          by_contra h0
          have := mul_right_cancel₀ h0 g1
          nlinarith
    obtain ⟨t, ht⟩ : ∃ t, s t ^ 2 = 4 * q ^ 2 := by
      by_contra hno
      push Not at hno
      have : ∀ i, u i 2 = 0 := fun i => ((hcomp i).resolve_left fun h => hno i h.1).1
      have h2 := cols_orthonormal ho 2 2
      simp [this] at h2
    have htq : s t = 2 * q := (pow_left_inj₀ (hs t) (by positivity) two_ne_zero).mp (by rw [ht]; ring)
    have hcut : ∀ i, u i 2 = 0 → ∃ k, s i ≤ rcondDefault rows.length 3 * s k := by
      intro i h2
      refine ⟨t, ?_⟩
      rw [hrc, htq]
      rcases hcomp i with ⟨_, h0, h1⟩ | ⟨_, h⟩
      · exfalso
        have := ho i i
        rw [if_pos rfl, Fin.sum_univ_three, h0, h1, h2] at this
        norm_num at this
      · have h50 : (0 : ℝ) < 2 ^ 50 := by positivity
        rw [one_div, inv_mul_eq_div, le_div_iff₀ h50]
        rcases h with h | h <;> nlinarith
    have huncut : ∀ i, u i 2 ≠ 0 → ¬ ∃ k, s i ≤ rcondDefault rows.length 3 * s k := by
      rintro i h2 ⟨k, hk⟩
      have hi : s i ^ 2 = 4 * q ^ 2 := ((hcomp i).resolve_right fun h => h2 h.1).1
      have hiq : s i = 2 * q := (pow_left_inj₀ (hs i) (by positivity) two_ne_zero).mp (by rw [hi]; ring)
      have hk2 : s k ≤ 2 * q := by
        rcases hcomp k with ⟨h, _⟩ | ⟨_, h | h⟩
        · exact le_of_eq ((pow_left_inj₀ (hs k) (by positivity) two_ne_zero).mp (by rw [h]; ring))
        · linarith
        · linarith
      rw [hrc, hiq] at hk
      have : (1 : ℝ) / 2 ^ 50 * s k ≤ 1 / 2 * (2 * q) := by
        have h1 : (1 : ℝ) / 2 ^ 50 ≤ 1 / 2 := by norm_num
        nlinarith [hs k]
      linarith
    have hterm : ∀ i j, (if ∃ k, s i ≤ rcondDefault rows.length 3 * s k then 0 else targetDot rows y (u i) / s i ^ 2 * u i j)
        = (y1 + y2 - y3 - y4) / (4 * q) * (u i 2 * u i j) := by
      intro i j
      by_cases h2 : u i 2 = 0
      · rw [if_pos (hcut i h2), h2]; ring
      · rw [if_neg (huncut i h2)]
        obtain ⟨hi, h0, h1⟩ := (hcomp i).resolve_right fun h => h2 h.1
        rw [htd, hi, h0, h1]
        field_simp
        ring
    have hbj : ∀ j, L 3 rows y j = (y1 + y2 - y3 - y4) / (4 * q) * (if 2 = j then 1 else 0) := by
      intro j
      rw [hb j, ← cols_orthonormal ho 2 j, Finset.mul_sum]
      exact Finset.sum_congr rfl fun i _ => hterm i j
    have hb1 : L 3 rows y 1 = 0 := by rw [hbj]; simp
    have hb2 : L 3 rows y 2 = (y1 + y2 - y3 - y4) / (4 * q) := by rw [hbj]; simp
    have hne : (y1 + y2 - y3 - y4) / (4 * q) ≠ 0 := by
      apply div_ne_zero
      · intro h; exact hy (by linarith)
      · positivity
    rw [← hrows, ← hyy]
    simp only [hb1, hb2, zero_mul, zero_add]
    rw [XR.fin_div _ hne]
    congr 2
    exact mul_div_cancel_left₀ v hne

/-- the contract with the cut-off can be met; a well-conditioned sample; a sample that feels the cut-off -/
example : (∃ L : LstsqFn, L.CorrectCut) ∧ WellConditioned (fourFirms 1 1 1 2 3 5) ∧
    ((1 / 2 ^ 52 * ((max (fourFirms 1 1 1 2 3 5).length 3 : ℕ) : ℝ)) ^ 2 * (4 + 4 + 4 : ℝ) ^ 3
      < 4 * (4 * 4 - 0 ^ 2) - 0 * (0 * 4 - 0 * 0) + 0 * (0 * 0 - 4 * 0)) ∧
    ((2 : ℝ) ^ 50 ≤ 2 ^ 50 ∧ (2 : ℝ) ^ 50 * 1 ≤ 2 ^ 50 ∧ (1 : ℝ) + 2 ≠ 3 + 4) := by
  refine ⟨exists_correctCut, ?_, by simp only [fourFirms, List.length_cons, List.length_nil]; norm_num, le_refl _, by norm_num, by norm_num⟩
  intro a b c h
  simp only [fourFirms, List.map_cons, List.map_nil, List.sum_cons, List.sum_nil, List.length_cons, List.length_nil]
  have : (a + b * 1 + c * 1) ^ 2 + ((a + b * -1 + c * 1) ^ 2 + ((a + b * 1 + c * -1) ^ 2 + ((a + b * -1 + c * -1) ^ 2 + 0)))
      = 4 * (a ^ 2 + b ^ 2 + c ^ 2) := by ring
  rw [this, h]
  norm_num

/-! ### Concrete cases of the theorems above -/

example {L : LstsqFn} (hL : L.CorrectCut) := C190_kyle hL [⟨1, 2⟩, ⟨-1, 3⟩] (by norm_num)
/-- Four firms, one variable in units `2 ^ 50` times smaller than the other: the fit ignores it. -/
example {L : LstsqFn} (hL : L.CorrectCut) (m v : ℝ) : sesOf L (fourFirms 1 (2 ^ 50) 1 2 3 4) m v = .ok (.fin v) :=
  (C190_ses_cut hL 1 (2 ^ 50) 1 2 3 4 m v (by norm_num) (le_refl _) (by norm_num) (by norm_num)).2

end
end Frds.Props
