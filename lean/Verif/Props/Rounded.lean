import Verif.Model.Rounded

/-! Properties that survive rounding: they hold for every rounding with the stated laws, in particular for IEEE
binary64 (`Machine.ieee`), and for every order of summation. -/
namespace Frds.Props
noncomputable section
open Frds Frds.Model Classical
set_option linter.unusedSimpArgs false

namespace Rounded
open Rounding

variable {M : Machine}

/-- quotient of two non-negative numbers, the first finite and not larger -/
theorem div_unit {R : Rounding} {x y : XR} (hx : 0 ≤ x) (hf : x ≠ .pinf) (hxy : x ≤ y) :
    (R.div x y = .nan ∧ x = 0 ∧ y = 0) ∨ (0 ≤ R.div x y ∧ R.div x y ≤ 1) := by
  rcases XR.nonneg_cases hx with rfl | ⟨a, ha, rfl⟩
  · exact absurd rfl hf
  rcases XR.nonneg_cases (XR.le_trans' hx hxy) with rfl | ⟨b, hb, rfl⟩
  · right
    show 0 ≤ R.round (.fin 0) ∧ R.round (.fin 0) ≤ 1
    rw [show R.round (.fin 0) = .fin 0 from rep_zero]
    exact ⟨XR.fin_le.mpr le_rfl, XR.fin_le.mpr zero_le_one⟩
  · rw [XR.fin_le] at hxy
    rcases hb.eq_or_lt with rfl | hb
    · left
      have : a = 0 := le_antisymm hxy ha
      subst this
      unfold Rounding.div
      rw [XR.fin_div_zero, XR.infSign_zero]
      exact ⟨rfl, rfl, rfl⟩
    · right
      unfold Rounding.div
      rw [XR.fin_div _ hb.ne']
      exact ⟨rd_nonneg (by positivity), rd_le_one ((div_le_one hb).mpr hxy)⟩

theorem ex_add (x y : XR) : Machine.exact.R.add x y = x + y := Machine.exact_round _
theorem ex_sub (x y : XR) : Machine.exact.R.sub x y = x - y := Machine.exact_round _
theorem ex_mul (x y : XR) : Machine.exact.R.mul x y = x * y := Machine.exact_round _
theorem ex_div (x y : XR) : Machine.exact.R.div x y = x / y := Machine.exact_round _
theorem ex_sqrt (x : XR) : Machine.exact.R.sqrt x = XR.sqrt x := Machine.exact_round _
theorem ex_round (x : XR) : Machine.exact.R.round x = x := Machine.exact_round _
theorem ex_sum (i : ℕ) (l : List XR) : Machine.exact.sum i l = l.sum := rfl
theorem ex_exp (x : XR) : Machine.exact.exp x = XR.exp x := rfl
theorem ex_log (x : XR) : Machine.exact.log x = XR.log x := rfl
theorem ex_mean (i : ℕ) (l : List XR) : Model.Rounded.mean Machine.exact i l = Np.mean l := by
  rw [Model.Rounded.mean, Np.mean, ex_div, ex_round, ex_sum]

theorem mul_nonneg_fin {R : Rounding} {a b : ℝ} (ha : 0 ≤ a) (hb : 0 ≤ b) : 0 ≤ R.mul (.fin a) (.fin b) :=
  rd_nonneg (mul_nonneg ha hb)

end Rounded
open Rounded Rounding

/-! ### C148: PIN -/

/-- C148: for arrival rates and probabilities in the estimation bounds, the computed PIN is in `[0, 1]`; it is NaN only
when both uninformed rates are zero and `alpha * mu` is zero (possibly by underflow). -/
theorem C148_range (M : Machine) (p : PinVec) (ha0 : 0 ≤ p.alpha) (ha1 : p.alpha ≤ 1) (hmu : 0 ≤ p.mu)
    (hmuf : p.mu ≠ .pinf) (hmur : M.R.Rep p.mu) (hb : 0 ≤ p.eB) (hbr : M.R.Rep p.eB) (hs : 0 ≤ p.eS)
    (hsr : M.R.Rep p.eS) :
    (Model.Rounded.pin M p = .nan ∧ p.eB = 0 ∧ p.eS = 0 ∧ M.R.mul p.alpha p.mu = 0) ∨
      (0 ≤ Model.Rounded.pin M p ∧ Model.Rounded.pin M p ≤ 1) := by
  obtain ⟨al, d, eB, eS, mu⟩ := p
  simp only at *
  rcases XR.nonneg_cases hmu with rfl | ⟨m, hm, rfl⟩
  · exact absurd rfl hmuf
  rcases XR.nonneg_cases ha0 with rfl | ⟨a, ha, rfl⟩
  · exact False.elim ha1
  rw [XR.one_def, XR.fin_le] at ha1
  have h1 : (0 : XR) ≤ M.R.mul (.fin a) (.fin m) := mul_nonneg_fin ha hm
  have h2 : M.R.mul (.fin a) (.fin m) ≤ .fin m := round_le hmur (XR.fin_le.mpr (by nlinarith))
  have h3 : M.R.mul (.fin a) (.fin m) ≠ .pinf := by
    intro h; rw [h] at h2; exact h2
  have r1 : M.R.Rep (M.R.mul (.fin a) (.fin m)) := rep_mul _ _
  have h4 := le_add_right r1 h1 hb
  have h5 := add_nonneg (R := M.R) h1 hb
  have h6 := le_add_right (rep_add (R := M.R) _ _) h5 hs
  have h7 := le_add_left hbr h1 hb
  have h8 := le_add_left hsr h5 hs
  have key := div_unit (R := M.R) h1 h3 (XR.le_trans' h4 h6)
  rcases key with ⟨k1, k2, k3⟩ | k
  · left
    refine ⟨k1, ?_, ?_, k2⟩
    · have := XR.le_trans' h7 h6
      rw [k3] at this
      rcases XR.nonneg_cases hb with rfl | ⟨b, hb', rfl⟩
      · exact False.elim this
      · exact XR.fin_inj.mpr (le_antisymm (XR.fin_le.mp this) hb')
    · rw [k3] at h8
      rcases XR.nonneg_cases hs with rfl | ⟨b, hb', rfl⟩
      · exact False.elim h8
      · exact XR.fin_inj.mpr (le_antisymm (XR.fin_le.mp h8) hb')
  · exact Or.inr k

example : 0 ≤ Model.Rounded.pin Machine.ieee ⟨1, 1, 3, 4, 5⟩ ∧ Model.Rounded.pin Machine.ieee ⟨1, 1, 3, 4, 5⟩ ≤ 1 := by
  have hn : ∀ n : ℕ, n ≤ 2 ^ 53 → Machine.ieee.R.Rep (.fin n) := fun n h => rep_nat (R := Machine.ieee.R) h
  have h3 := hn 3 (by norm_num)
  have h4 := hn 4 (by norm_num)
  have h5 := hn 5 (by norm_num)
  rcases C148_range Machine.ieee ⟨1, 1, 3, 4, 5⟩ (XR.fin_le.mpr zero_le_one) (XR.fin_le.mpr le_rfl)
    (XR.fin_le.mpr (by norm_num)) (by simp [XR.ofNat_def]) (by simpa [XR.ofNat_def] using h5) (XR.fin_le.mpr (by norm_num))
    (by simpa [XR.ofNat_def] using h3) (XR.fin_le.mpr (by norm_num)) (by simpa [XR.ofNat_def] using h4) with h | h
  · exact absurd h.2.1 (by simp [XR.ofNat_def, XR.zero_def])
  · exact h

/-- C148: without rounding the computation is the exact formula. -/
theorem C148_exact (p : PinVec) : Model.Rounded.pin Machine.exact p = calculatePin p := by
  simp only [Model.Rounded.pin, calculatePin, ex_add, ex_mul, ex_div]

/-! ### C149: quoted spread -/

namespace Rounded

/-- computed midpoint and relative spread of one quote -/
theorem quote (M : Machine) (hp : 1 ≤ M.R.prec) {b a : ℝ} (hb : 0 < b) (hba : b ≤ a) (rb : M.R.Rep (.fin b))
    (ra : M.R.Rep (.fin a)) :
    (Model.Rounded.midpoint M (.fin b) (.fin a) = .pinf ∨
      (.fin b ≤ Model.Rounded.midpoint M (.fin b) (.fin a) ∧ Model.Rounded.midpoint M (.fin b) (.fin a) ≤ .fin a)) ∧
    0 ≤ Model.Rounded.relSpread M (.fin b) (.fin a) ∧ Model.Rounded.relSpread M (.fin b) (.fin a) ≤ 2 := by
  have ha : 0 < a := hb.trans_le hba
  have rb' : M.R.rd b = .fin b := rb
  have ra' : M.R.rd a = .fin a := ra
  -- the difference is finite
  obtain ⟨d, hd, hd0, hda⟩ : ∃ d, M.R.rd (a - b) = .fin d ∧ 0 ≤ d ∧ d ≤ a := by
    have h1 := rd_nonneg (R := M.R) (show 0 ≤ a - b by linarith)
    have h2 := M.R.mono (a - b) a (by linarith)
    rw [ra'] at h2
    rcases XR.nonneg_cases h1 with h | ⟨d, hd, h⟩
    · rw [h] at h2; exact False.elim h2
    · rw [h] at h2; exact ⟨d, h, hd, XR.fin_le.mp h2⟩
  have hge : .fin a ≤ M.R.rd (b + a) := by
    have := M.R.mono a (b + a) (by linarith)
    rwa [ra'] at this
  have h2' : (2 : XR) = .fin 2 := rfl
  have rep2 : M.R.Rep (.fin 2) := rep_two hp
  rcases XR.nonneg_cases (XR.le_trans' (XR.nonneg_fin.mpr ha.le) hge) with hs | ⟨s, hs0, hs⟩
  · have hm : Model.Rounded.midpoint M (.fin b) (.fin a) = .pinf := by
      show M.R.round (M.R.rd (b + a) / 2) = _
      rw [hs, h2']
      show M.R.round (if (2 : ℝ) < 0 then XR.ninf else XR.pinf) = _
      rw [if_neg (by norm_num)]
      rfl
    have hr : Model.Rounded.relSpread M (.fin b) (.fin a) = .fin 0 := by
      unfold Model.Rounded.relSpread
      rw [hm]
      unfold Rounding.div Rounding.sub
      rw [XR.fin_sub, round_fin, hd]
      exact rep_zero
    rw [hr]
    exact ⟨Or.inl hm, XR.fin_le.mpr le_rfl, XR.fin_le.mpr (by norm_num)⟩
  · have hs' : M.R.rd (a + b) = .fin s := by rw [add_comm]; exact hs
    obtain ⟨m, hm, hdm⟩ := M.R.mid a b s d ra' rb' hb hba hs' hd
    have hss : M.R.rd s = .fin s := M.R.idem _ _ hs
    have hbm : b ≤ m := by
      have h1 := M.R.mono (2 * b) (b + a) (by linarith)
      rw [hs] at h1
      have h2 : 2 * b ≤ s := by
        rcases M.R.double b hb.le rb' with h | h
        · rw [h] at h1; exact XR.fin_le.mp h1
        · rw [h] at h1; exact False.elim h1
      have h3 := M.R.mono b (s / 2) (by linarith)
      rw [rb', hm] at h3
      exact XR.fin_le.mp h3
    have hma : m ≤ a := by
      have h2 : s ≤ 2 * a := by
        rcases M.R.double a ha.le ra' with h | h
        · have h1 := M.R.mono (b + a) (2 * a) (by linarith)
          rw [h, hs] at h1
          exact XR.fin_le.mp h1
        · by_contra hcon
          have h1 := M.R.mono (2 * a) s (by linarith)
          rw [h, hss] at h1
          exact h1
      have h3 := M.R.mono (s / 2) a (by linarith)
      rw [ra', hm] at h3
      exact XR.fin_le.mp h3
    have hmid : Model.Rounded.midpoint M (.fin b) (.fin a) = .fin m := by
      show M.R.round (M.R.rd (b + a) / 2) = _
      rw [hs, h2', XR.fin_div _ (by norm_num), round_fin, hm]
    have hm0 : 0 < m := hb.trans_le hbm
    have hr : Model.Rounded.relSpread M (.fin b) (.fin a) = M.R.rd (d / m) := by
      unfold Model.Rounded.relSpread
      rw [hmid]
      unfold Rounding.div Rounding.sub
      rw [XR.fin_sub, round_fin, hd, XR.fin_div _ hm0.ne', round_fin]
    rw [hmid, hr]
    refine ⟨Or.inr ⟨XR.fin_le.mpr hbm, XR.fin_le.mpr hma⟩, rd_nonneg (by positivity), ?_⟩
    exact round_le (x := .fin (d / m)) rep2 (XR.fin_le.mpr ((div_le_iff₀ hm0).mpr hdm))

/-- mean of non-negative numbers of the format bounded by an integer -/
theorem mean_bounds (M : Machine) (i : ℕ) (c : ℕ) (l : List XR) (hne : l ≠ []) (hc : c * l.length ≤ 2 ^ M.R.prec)
    (hn : l.length ≤ 2 ^ M.R.prec) (hc' : c ≤ 2 ^ M.R.prec) (hl : ∀ x ∈ l, 0 ≤ x ∧ M.R.Rep x ∧ x ≤ .fin c) :
    0 ≤ Model.Rounded.mean M i l ∧ Model.Rounded.mean M i l ≤ .fin c := by
  have h1 := (M.sum_ok i l).nonneg fun x hx => ⟨(hl x hx).1, (hl x hx).2.1⟩
  have h2 := (M.sum_ok i l).le_mul c hc fun x hx => ⟨(hl x hx).2.2, XR.le_trans' (XR.fin_le.mpr (by simp)) (hl x hx).1⟩
  have hpos : (0 : ℝ) < l.length := by exact_mod_cast List.length_pos_iff.mpr hne
  unfold Model.Rounded.mean Rounding.div
  rw [show M.R.round (.fin l.length) = .fin l.length from rep_nat hn]
  rcases XR.nonneg_cases h1.1 with h | ⟨s, hs, h⟩
  · rw [h] at h2; exact False.elim h2.1
  · rw [h] at h2
    rw [h, XR.fin_div _ hpos.ne', round_fin]
    refine ⟨rd_nonneg (by positivity), round_le (x := .fin (s / l.length)) (rep_nat hc') (XR.fin_le.mpr ?_)⟩
    rw [div_le_iff₀ hpos]
    have := XR.fin_le.mp h2.1
    push_cast at this
    exact this

end Rounded
open Rounded

/-- C149: for `0 < bid ≤ ask` the computed midpoint lies between the quotes (or overflows to infinity). -/
theorem C149_midpoint (M : Machine) (hp : 1 ≤ M.R.prec) (b a : ℝ) (hb : 0 < b) (hba : b ≤ a) (rb : M.R.Rep (.fin b))
    (ra : M.R.Rep (.fin a)) :
    Model.Rounded.midpoint M (.fin b) (.fin a) = .pinf ∨
      (.fin b ≤ Model.Rounded.midpoint M (.fin b) (.fin a) ∧ Model.Rounded.midpoint M (.fin b) (.fin a) ≤ .fin a) :=
  (quote M hp hb hba rb ra).1

/-- C149: the computed percentage quoted spread of quotes with `0 < bid ≤ ask` is between 0 and 200 and not NaN. -/
theorem C149_range (M : Machine) (hp : 8 ≤ M.R.prec) (q : List (ℝ × ℝ)) (hne : q ≠ []) (hn : 2 * q.length ≤ 2 ^ M.R.prec)
    (hq : ∀ x ∈ q, 0 < x.1 ∧ x.1 ≤ x.2 ∧ M.R.Rep (.fin x.1) ∧ M.R.Rep (.fin x.2)) :
    ∃ r, Model.Rounded.quotedSpread M (q.map fun x => .fin x.1) (q.map fun x => .fin x.2) true = .ok r ∧
      0 ≤ r ∧ r ≤ .fin 200 := by
  have hl : List.zipWith (Model.Rounded.relSpread M) (q.map fun x => XR.fin x.1) (q.map fun x => XR.fin x.2) =
      q.map fun x => Model.Rounded.relSpread M (.fin x.1) (.fin x.2) := by
    rw [List.zipWith_map, List.zipWith_self]
  refine ⟨M.R.mul (Model.Rounded.mean M 0 (q.map fun x => Model.Rounded.relSpread M (.fin x.1) (.fin x.2))) 100, by
    simp only [Model.Rounded.quotedSpread, List.length_map, ne_eq, not_true_eq_false, if_false, if_true, hl], ?_⟩
  have h256 : 2 ^ 8 ≤ 2 ^ M.R.prec := Nat.pow_le_pow_right (by norm_num) hp
  have key := mean_bounds M 0 2 (q.map fun x => Model.Rounded.relSpread M (.fin x.1) (.fin x.2)) (by simpa using hne)
    (by simpa using hn) (by simp; omega) (by omega) (by
      intro x hx
      obtain ⟨y, hy, rfl⟩ := List.mem_map.mp hx
      obtain ⟨h1, h2, h3, h4⟩ := hq y hy
      have := (quote M (by omega) h1 h2 h3 h4).2
      exact ⟨this.1, rep_div _ _, by simpa [XR.ofNat_def] using this.2⟩)
  rcases XR.nonneg_cases key.1 with h | ⟨s, hs, h⟩
  · rw [h] at key; exact False.elim key.2
  · rw [h]
    rw [h, XR.fin_le] at key
    refine ⟨mul_nonneg_fin hs (by norm_num), ?_⟩
    have rep200 := rep_nat (R := M.R) (n := 200) (by omega)
    refine round_le (x := .fin s * 100) (by simpa using rep200) (XR.fin_le.mpr ?_)
    have := key.2
    push_cast at this
    nlinarith

example : ∃ r, Model.Rounded.quotedSpread Machine.ieee [.fin 9, .fin 1] [.fin 11, .fin 3] true = .ok r ∧ 0 ≤ r ∧
    r ≤ .fin 200 := by
  have hn : ∀ n : ℕ, n ≤ 2 ^ 53 → Machine.ieee.R.Rep (.fin n) := fun n h => rep_nat (R := Machine.ieee.R) h
  have h9 := hn 9 (by norm_num)
  have h11 := hn 11 (by norm_num)
  have h1 := hn 1 (by norm_num)
  have h3 := hn 3 (by norm_num)
  refine C149_range Machine.ieee (by decide) [(9, 11), (1, 3)] (by simp) (by decide) ?_
  intro x hx
  simp only [List.mem_cons, List.not_mem_nil, or_false] at hx
  rcases hx with rfl | rfl
  · exact ⟨by norm_num, by norm_num, by simpa using h9, by simpa using h11⟩
  · exact ⟨by norm_num, by norm_num, by simpa using h1, by simpa using h3⟩

theorem Rounded.zip_spread (bid ask : List XR) :
    List.zipWith (fun b a : XR => (a - b) / ((b + a) / 2)) bid ask =
      List.zipWith (· / ·) (List.zipWith (fun a b : XR => a - b) ask bid)
        (List.zipWith (fun b a : XR => (b + a) / 2) bid ask) := by
  induction bid generalizing ask with
  | nil => cases ask <;> simp
  | cons b t ih =>
    cases ask with
    | nil => simp
    | cons a u => simp [ih u]

/-- C149: without rounding the computation is the exact formula. -/
theorem C149_exact (bid ask : List XR) (pct : Bool) :
    Model.Rounded.quotedSpread Machine.exact bid ask pct = Model.quotedSpread bid ask pct := by
  unfold Model.Rounded.quotedSpread Model.quotedSpread
  by_cases h : bid.length ≠ ask.length
  · rw [if_pos h, if_pos h]
  · rw [if_neg h, if_neg h]
    cases pct
    · simp only [Bool.false_eq_true, if_false, ex_mean, ex_sub, ex_log]
    · have : Model.Rounded.relSpread Machine.exact = fun b a : XR => (a - b) / ((b + a) / 2) := by
        funext b a
        simp only [Model.Rounded.relSpread, Model.Rounded.midpoint, ex_add, ex_sub, ex_div]
      simp only [if_true, ex_mean, ex_mul, this, zip_spread]

end
end Frds.Props
