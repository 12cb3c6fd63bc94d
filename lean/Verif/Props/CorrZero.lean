import Verif.Props.DccStartFloat

/-! C213: a series of zeros has no correlation. -/
namespace Frds.Props
noncomputable section
open Frds Frds.Model Classical Rounding CorrFloat
set_option linter.unusedSimpArgs false

theorem CorrZero.sum_zero (M : Machine) {l : List XR} {s : XR} (h : M.R.IsSum l s) (hl : ∀ x ∈ l, x = .fin 0) : s = .fin 0 := by
  induction h with
  | nil => rfl
  | single x => exact hl x (by simp)
  | add _ _ ih1 ih2 =>
    rw [ih1 fun x hx => hl x (List.mem_append_left _ hx), ih2 fun x hx => hl x (List.mem_append_right _ hx)]
    show M.R.round (.fin 0 + .fin 0) = .fin 0
    rw [XR.fin_add, add_zero]
    exact Rounding.rd_zero
  | perm hp _ ih => exact ih fun x hx => hl x (hp.subset hx)

/-- C213. The spread hypothesis is needed: if the first series consists of zeros, the starting correlation is NaN in binary64 whatever the other
series is (at least two and at most `2^38` observations, numbers of the format of magnitude at most `2^60`). -/
theorem C213_zero (M : Machine) (hM : M.R = binary64.rounding) (i : ℕ) (x y : List ℝ) (hlen : x.length = y.length) (h2 : 2 ≤ x.length)
    (hl : x.length ≤ 2 ^ 38) (hx : ∀ v ∈ x, v = 0) (hy : ∀ v ∈ y, |v| ≤ 2 ^ 60 ∧ M.R.Rep (.fin v)) :
    Model.Rounded.npCorr M i (x.map .fin) (y.map .fin) = .nan := by
  have z0 : M.R.rd 0 = .fin 0 := Rounding.rd_zero
  have hn : (x.length : ℝ) ≠ 0 := by have : (2 : ℝ) ≤ x.length := by exact_mod_cast h2
                                     linarith
  have hxm : ∀ v ∈ x.map XR.fin, v = .fin 0 := by
    intro v hv
    obtain ⟨u, hu, rfl⟩ := List.mem_map.mp hv
    rw [hx u hu]
  have hmean : Model.Rounded.mean M i (x.map .fin) = .fin 0 := by
    have hr : M.R.round (.fin (x.length : ℝ)) = .fin x.length :=
      Rounding.rep_nat (by rw [hM]; exact hl.trans (by show 2 ^ 38 ≤ 2 ^ 53; norm_num))
    unfold Model.Rounded.mean
    rw [CorrZero.sum_zero M (M.sum_ok i _) hxm, List.length_map, hr]
    unfold Rounding.div
    rw [XR.fin_div _ hn, Rounding.round_fin, zero_div, z0]
  have hcx : ∀ v ∈ Model.Rounded.centred M i (x.map .fin), v = .fin 0 := by
    intro v hv
    unfold Model.Rounded.centred at hv
    obtain ⟨u, hu, rfl⟩ := List.mem_map.mp hv
    rw [hmean, hxm u hu]
    unfold Rounding.sub
    rw [XR.fin_sub, Rounding.round_fin, sub_zero, z0]
  have hcl : (Model.Rounded.centred M i (x.map .fin)).length = x.length := by simp [Model.Rounded.centred]
  have hne : y ≠ [] := by intro h; have e : x.length = 0 := by { rw [hlen, h]; rfl }; omega
  obtain ⟨d, hd, ld, -, -⟩ := centred_bd hM (i + 1) y hne (by omega) hy
  have hone : ∃ f : ℝ, M.R.div 1 (M.R.round (.fin ((x.length : ℝ) - 1))) = .fin f := by
    have hr : M.R.round (.fin ((x.length : ℝ) - 1)) = .fin ((x.length : ℝ) - 1) := by
      have := Rounding.rep_nat (R := M.R) (n := x.length - 1) (by
        rw [hM]; exact (Nat.sub_le _ _).trans (hl.trans (by show 2 ^ 38 ≤ 2 ^ 53; norm_num)))
      rw [Nat.cast_sub (by omega), Nat.cast_one] at this
      exact this
    have h1 : (1 : ℝ) ≤ (x.length : ℝ) - 1 := by
      have : (2 : ℝ) ≤ x.length := by exact_mod_cast h2
      linarith
    rw [hr]
    unfold Rounding.div
    rw [XR.one_def, XR.fin_div _ (by linarith), Rounding.round_fin]
    obtain ⟨f, hf, -, -⟩ := DccStartFloat.rd_near hM (x := 1 / ((x.length : ℝ) - 1)) (by
      rw [abs_of_nonneg (by positivity), div_le_iff₀ (by linarith)]; linarith)
    exact ⟨f, hf⟩
  obtain ⟨f, hf⟩ := hone
  have hent : ∀ (k : ℕ) (e : List XR), (∀ v ∈ e, ∃ r : ℝ, v = .fin r) →
      Model.Rounded.covEntry M k (Model.Rounded.centred M i (x.map .fin)) e = .fin 0 := by
    intro k e he
    unfold Model.Rounded.covEntry
    rw [CorrZero.sum_zero M (M.sum_ok k _), hcl, hf]
    · unfold Rounding.mul
      rw [XR.fin_mul, Rounding.round_fin, zero_mul, z0]
    · intro v hv
      rw [← List.map_uncurry_zip_eq_zipWith] at hv
      obtain ⟨p, hp, rfl⟩ := List.mem_map.mp hv
      have hp' := List.of_mem_zip (a := p.1) (b := p.2) hp
      obtain ⟨r, hr⟩ := he p.2 hp'.2
      show M.R.mul p.1 p.2 = .fin 0
      rw [hcx p.1 hp'.1, hr]
      unfold Rounding.mul
      rw [XR.fin_mul, Rounding.round_fin, zero_mul, z0]
  have hsq : M.R.sqrt (.fin 0) = .fin 0 := by
    unfold Rounding.sqrt
    rw [XR.fin_sqrt le_rfl, Rounding.round_fin, Real.sqrt_zero, z0]
  have hdn : ∀ w : XR, M.R.div .nan w = .nan := fun w => rfl
  have hdz : M.R.div (.fin 0) (.fin 0) = .nan := by
    unfold Rounding.div
    rw [show ((.fin 0 : XR) / .fin 0) = .nan by simp [HDiv.hDiv, Div.div, XR.div, XR.infSign]]
    rfl
  unfold Model.Rounded.npCorr Model.Rounded.corrcoef Model.Rounded.npCov
  simp only
  rw [hent _ _ fun v hv => ⟨0, hcx v hv⟩, hent _ _ (by
    rw [hd]
    intro v hv
    obtain ⟨u, -, rfl⟩ := List.mem_map.mp hv
    exact ⟨u, rfl⟩), hsq, hdz, hdn]
  simp [Np.clip, XR.npMax, XR.npMin]

/-- three zeros and any three numbers -/
example (i : ℕ) : Model.Rounded.npCorr Machine.ieee i (([0, 0, 0] : List ℝ).map .fin) (([1, 0, 1] : List ℝ).map .fin) = .nan :=
  C213_zero Machine.ieee rfl i _ _ rfl (by simp) (by norm_num) (by simp) (by
    intro v hv
    simp only [List.mem_cons, List.not_mem_nil, or_false] at hv
    rcases hv with rfl | rfl | rfl
    · exact ⟨by rw [abs_one]; norm_num, Rounding.rep_one⟩
    · exact ⟨by rw [abs_zero]; norm_num, Rounding.rep_zero⟩
    · exact ⟨by rw [abs_one]; norm_num, Rounding.rep_one⟩)

end
end Frds.Props
