import Verif.Model.RoundedPin
import Verif.Props.RoundedLik
import Verif.Props.DccFloat
import Verif.Props.Pin

/-! C209: the two likelihoods of the PIN model in floating point. -/
set_option linter.unusedSimpArgs false
namespace Frds.Props
noncomputable section
open Frds Frds.Model Classical

namespace PinFloat

/-- a finite number of absolute value at most `n` -/
def Bd (n : ℕ) (x : XR) : Prop := ∃ v : ℝ, x = .fin v ∧ |v| ≤ n

/-- a finite number between `-n` and 0 -/
def Neg (n : ℕ) (x : XR) : Prop := ∃ v : ℝ, x = .fin v ∧ -(n : ℝ) ≤ v ∧ v ≤ 0

/-- a finite number between 0 and `n` -/
def Pos (n : ℕ) (x : XR) : Prop := ∃ v : ℝ, x = .fin v ∧ 0 ≤ v ∧ v ≤ n

variable {R : Rounding}

theorem rd_bd {n : ℕ} (hn : n ≤ 2 ^ R.prec) {v : ℝ} (h : |v| ≤ n) : Bd n (R.rd v) := by
  have h1 : R.rd v ≤ .fin n := Rounding.round_le (x := .fin v) (Rounding.rep_nat hn) (XR.fin_le.mpr (abs_le.mp h).2)
  have h2 : .fin (-(n : ℝ)) ≤ R.rd v :=
    Rounding.le_round (y := .fin v) (Rounding.neg_rep (Rounding.rep_nat hn)) (XR.fin_le.mpr (abs_le.mp h).1)
  rcases e : R.rd v with _ | _ | _ | w <;> rw [e] at h1 h2
  · exact h1.elim
  · exact h2.elim
  · exact h1.elim
  · exact ⟨w, rfl, abs_le.mpr ⟨XR.fin_le.mp h2, XR.fin_le.mp h1⟩⟩

theorem rd_pos {n : ℕ} (hn : n ≤ 2 ^ R.prec) {v : ℝ} (h0 : 0 ≤ v) (h : v ≤ n) : Pos n (R.rd v) := by
  obtain ⟨w, e, b⟩ := rd_bd hn (by rwa [abs_of_nonneg h0])
  have := Rounding.rd_nonneg (R := R) h0
  rw [e] at this
  exact ⟨w, e, XR.fin_le.mp this, (abs_le.mp b).2⟩

theorem rd_neg {n : ℕ} (hn : n ≤ 2 ^ R.prec) {v : ℝ} (h0 : v ≤ 0) (h : -(n : ℝ) ≤ v) : Neg n (R.rd v) := by
  obtain ⟨w, e, b⟩ := rd_bd hn (v := v) (by rw [abs_of_nonpos h0]; linarith)
  have := Rounding.round_le (R := R) (x := .fin v) Rounding.rep_zero (XR.fin_le.mpr h0)
  rw [Rounding.round_fin, e] at this
  exact ⟨w, e, (abs_le.mp b).1, XR.fin_le.mp this⟩

theorem add_bd {m n : ℕ} (hn : m + n ≤ 2 ^ R.prec) {x y : XR} (hx : Bd m x) (hy : Bd n y) : Bd (m + n) (R.add x y) := by
  obtain ⟨a, rfl, ha⟩ := hx
  obtain ⟨b, rfl, hb⟩ := hy
  unfold Rounding.add
  rw [XR.fin_add, Rounding.round_fin]
  exact rd_bd hn (by push_cast; exact (abs_add_le _ _).trans (add_le_add ha hb))

theorem mul_bd {m n : ℕ} (hn : m * n ≤ 2 ^ R.prec) {x y : XR} (hx : Bd m x) (hy : Bd n y) : Bd (m * n) (R.mul x y) := by
  obtain ⟨a, rfl, ha⟩ := hx
  obtain ⟨b, rfl, hb⟩ := hy
  unfold Rounding.mul
  rw [XR.fin_mul, Rounding.round_fin]
  exact rd_bd hn (by push_cast; rw [abs_mul]; exact mul_le_mul ha hb (abs_nonneg _) ((abs_nonneg a).trans ha))

theorem mul_pos {m n : ℕ} (hn : m * n ≤ 2 ^ R.prec) {x y : XR} (hx : Pos m x) (hy : Pos n y) : Pos (m * n) (R.mul x y) := by
  obtain ⟨a, rfl, a0, ha⟩ := hx
  obtain ⟨b, rfl, b0, hb⟩ := hy
  unfold Rounding.mul
  rw [XR.fin_mul, Rounding.round_fin]
  exact rd_pos hn (by positivity) (by push_cast; exact mul_le_mul ha hb b0 (a0.trans ha))

theorem mul_neg {m n : ℕ} (hn : m * n ≤ 2 ^ R.prec) {x y : XR} (hx : Neg m x) (hy : Pos n y) : Neg (m * n) (R.mul x y) := by
  obtain ⟨a, rfl, ha, a0⟩ := hx
  obtain ⟨b, rfl, b0, hb⟩ := hy
  unfold Rounding.mul
  rw [XR.fin_mul, Rounding.round_fin]
  exact rd_neg hn (mul_nonpos_of_nonpos_of_nonneg a0 b0) (by
    push_cast
    have := mul_le_mul (show -a ≤ m by linarith) hb b0 (by linarith)
    linarith)

theorem sub_neg {m n : ℕ} (hn : m + n ≤ 2 ^ R.prec) {x y : XR} (hx : Neg m x) (hy : Pos n y) : Neg (m + n) (R.sub x y) := by
  obtain ⟨a, rfl, ha, a0⟩ := hx
  obtain ⟨b, rfl, b0, hb⟩ := hy
  unfold Rounding.sub
  rw [XR.fin_sub, Rounding.round_fin]
  exact rd_neg hn (by linarith) (by push_cast; linarith)

theorem Pos.bd {n : ℕ} {x : XR} (h : Pos n x) : Bd n x := by
  obtain ⟨a, rfl, a0, ha⟩ := h
  exact ⟨a, rfl, by rwa [abs_of_nonneg a0]⟩

theorem Neg.bd {n : ℕ} {x : XR} (h : Neg n x) : Bd n x := by
  obtain ⟨a, rfl, ha, a0⟩ := h
  exact ⟨a, rfl, by rw [abs_of_nonpos a0]; linarith⟩

theorem Neg.mono {m n : ℕ} {x : XR} (h : Neg m x) (hmn : m ≤ n) : Neg n x := by
  obtain ⟨a, rfl, ha, a0⟩ := h
  have : (m : ℝ) ≤ n := by exact_mod_cast hmn
  exact ⟨a, rfl, by linarith, a0⟩

theorem Bd.mono {m n : ℕ} {x : XR} (h : Bd m x) (hmn : m ≤ n) : Bd n x := by
  obtain ⟨a, rfl, ha⟩ := h
  have : (m : ℝ) ≤ n := by exact_mod_cast hmn
  exact ⟨a, rfl, by linarith⟩

theorem Pos.neg {n : ℕ} {x : XR} (h : Pos n x) : Neg n (-x) := by
  obtain ⟨a, rfl, a0, ha⟩ := h
  exact ⟨-a, rfl, by linarith, by linarith⟩

theorem sum_bd {l : List XR} {s : XR} (h : R.IsSum l s) (c : ℕ) (hc : c * l.length ≤ 2 ^ R.prec) (hl : ∀ x ∈ l, Bd c x) :
    Bd (c * l.length) s := by
  obtain ⟨h1, h2⟩ := h.le_mul c hc fun x hx => by
    obtain ⟨v, rfl, hv⟩ := hl x hx
    exact ⟨XR.fin_le.mpr (abs_le.mp hv).2, XR.fin_le.mpr (abs_le.mp hv).1⟩
  rcases s with _ | _ | _ | w
  · exact h1.elim
  · exact h2.elim
  · exact h1.elim
  · exact ⟨w, rfl, abs_le.mpr ⟨XR.fin_le.mp h2, XR.fin_le.mp h1⟩⟩

theorem sum_nan {l : List XR} {s : XR} (h : R.IsSum l s) (hl : XR.nan ∈ l) : s = .nan := by
  induction h with
  | nil => simp at hl
  | single x => exact (List.mem_singleton.mp hl).symm
  | add _ _ h1 h2 =>
    unfold Rounding.add
    rcases List.mem_append.mp hl with h | h
    · rw [h1 h]; simp [Rounding.round]
    · rw [h2 h]; simp [Rounding.round]
  | perm hp _ ih => exact ih (hp.mem_iff.mpr hl)

/-- what is assumed about the machine's exponential: between 0 and 1 on the negative half-line -/
def ExpOk (M : Machine) : Prop := (∀ x : ℝ, x ≤ 0 → Pos 1 (M.exp (.fin x))) ∧ M.exp (.fin 0) = .fin 1

/-- the exponents of a day: all between `-K` and 0, the largest is one of them -/
theorem exps (M : Machine) (c k : ℕ) (hk : c + 2 * c * k ≤ 2 ^ M.R.prec) (b s eB eS mu alpha delta : ℝ)
    (hb : 0 ≤ b ∧ b ≤ c) (hs : 0 ≤ s ∧ s ≤ c) (hmu : 0 ≤ mu ∧ mu ≤ c)
    (hL1 : Pos k (M.log (M.R.add 1 (M.R.div (.fin mu) (.fin eS))))) (hL2 : Pos k (M.log (M.R.add 1 (M.R.div (.fin mu) (.fin eB))))) :
    ∃ e1 e2 e3 : ℝ,
      Model.Rounded.lkE1 M (.fin b) (.fin s) ⟨.fin alpha, .fin delta, .fin eB, .fin eS, .fin mu⟩ = .fin e1 ∧
      Model.Rounded.lkE2 M (.fin b) (.fin s) ⟨.fin alpha, .fin delta, .fin eB, .fin eS, .fin mu⟩ = .fin e2 ∧
      Model.Rounded.lkE3 M (.fin b) (.fin s) ⟨.fin alpha, .fin delta, .fin eB, .fin eS, .fin mu⟩ = .fin e3 ∧
      Model.Rounded.lkMax M (.fin b) (.fin s) ⟨.fin alpha, .fin delta, .fin eB, .fin eS, .fin mu⟩ = .fin (max (max e1 e2) e3) ∧
      -((c + 2 * c * k : ℕ) : ℝ) ≤ e1 ∧ -((c + 2 * c * k : ℕ) : ℝ) ≤ e2 ∧ -((c + 2 * c * k : ℕ) : ℝ) ≤ e3 ∧ e1 ≤ 0 ∧ e2 ≤ 0 ∧ e3 ≤ 0 := by
  have hck : c * k ≤ 2 * c * k := by
    have : 2 * c * k = c * k + c * k := by ring
    omega
  have pb : Pos c (.fin b) := ⟨b, rfl, hb.1, hb.2⟩
  have ps : Pos c (.fin s) := ⟨s, rfl, hs.1, hs.2⟩
  have nmu : Neg c (-(.fin mu)) := Pos.neg ⟨mu, rfl, hmu.1, hmu.2⟩
  have m1 := mul_pos (R := M.R) (by omega) ps hL1
  have m2 := mul_pos (R := M.R) (by omega) pb hL2
  have m3 := mul_neg (R := M.R) (by omega) pb.neg hL2
  obtain ⟨e1, h1, l1, u1⟩ := (sub_neg (R := M.R) (by omega) nmu m1).mono (show c + c * k ≤ c + 2 * c * k by omega)
  obtain ⟨e2, h2, l2, u2⟩ := (sub_neg (R := M.R) (by omega) nmu m2).mono (show c + c * k ≤ c + 2 * c * k by omega)
  have e : c * k + c * k = 2 * c * k := by ring
  obtain ⟨e3, h3, l3, u3⟩ := (sub_neg (R := M.R) (by omega) m3 m1).mono (show c * k + c * k ≤ c + 2 * c * k by omega)
  refine ⟨e1, e2, e3, h1, h2, h3, ?_, l1, l2, l3, u1, u2, u3⟩
  · unfold Model.Rounded.lkMax
    have a1 : Model.Rounded.lkE1 M (.fin b) (.fin s) ⟨.fin alpha, .fin delta, .fin eB, .fin eS, .fin mu⟩ = .fin e1 := h1
    have a2 : Model.Rounded.lkE2 M (.fin b) (.fin s) ⟨.fin alpha, .fin delta, .fin eB, .fin eS, .fin mu⟩ = .fin e2 := h2
    have a3 : Model.Rounded.lkE3 M (.fin b) (.fin s) ⟨.fin alpha, .fin delta, .fin eB, .fin eS, .fin mu⟩ = .fin e3 := h3
    rw [a1, a2, a3, XR.npMax_fin, XR.npMax_fin]

/-- a difference that is not positive -/
theorem sub_nonpos (M : Machine) {x y : ℝ} (h : x ≤ y) {n : ℕ} (hn : n ≤ 2 ^ M.R.prec) (hb : y - x ≤ n) :
    ∃ v : ℝ, M.R.sub (.fin x) (.fin y) = .fin v ∧ v ≤ 0 := by
  unfold Rounding.sub
  rw [XR.fin_sub, Rounding.round_fin]
  obtain ⟨v, e, -, b⟩ := rd_neg (R := M.R) hn (v := x - y) (by linarith) (by linarith)
  exact ⟨v, e, b⟩

theorem add_pos {R : Rounding} {m n : ℕ} (hn : m + n ≤ 2 ^ R.prec) {x y : XR} (hx : Pos m x) (hy : Pos n y) :
    Pos (m + n) (R.add x y) := by
  obtain ⟨a, rfl, a0, ha⟩ := hx
  obtain ⟨b, rfl, b0, hb⟩ := hy
  unfold Rounding.add
  rw [XR.fin_add, Rounding.round_fin]
  exact rd_pos hn (by positivity) (by push_cast; linarith)

theorem Pos.nonneg {n : ℕ} {x : XR} (h : Pos n x) : 0 ≤ x := by
  obtain ⟨a, rfl, a0, -⟩ := h
  exact XR.nonneg_fin.mpr a0

/-- one minus a probability -/
theorem one_sub (M : Machine) (hp : 1 ≤ 2 ^ M.R.prec) {x : ℝ} (h0 : 0 ≤ x) (h1 : x ≤ 1) : Pos 1 (M.R.sub 1 (.fin x)) := by
  unfold Rounding.sub
  rw [XR.one_def, XR.fin_sub, Rounding.round_fin]
  exact rd_pos hp (by linarith) (by push_cast; linarith)

/-- the mixture of a day: at most 3, and at least the least of the three weights -/
theorem mix (M : Machine) (hexp : ExpOk M) (c k : ℕ) (hk : c + 2 * c * k ≤ 2 ^ M.R.prec) (h3 : 3 ≤ 2 ^ M.R.prec)
    (b s eB eS mu alpha delta : ℝ)
    (hb : 0 ≤ b ∧ b ≤ c) (hs : 0 ≤ s ∧ s ≤ c) (hmu : 0 ≤ mu ∧ mu ≤ c) (ha : 0 ≤ alpha ∧ alpha ≤ 1) (hd : 0 ≤ delta ∧ delta ≤ 1)
    (hL1 : Pos k (M.log (M.R.add 1 (M.R.div (.fin mu) (.fin eS))))) (hL2 : Pos k (M.log (M.R.add 1 (M.R.div (.fin mu) (.fin eB))))) :
    ∃ x : ℝ, Model.Rounded.lkMix M ⟨.fin alpha, .fin delta, .fin eB, .fin eS, .fin mu⟩ (.fin b) (.fin s) = .fin x ∧ 0 ≤ x ∧ x ≤ 3 ∧
      ∀ w : ℝ, .fin w ≤ M.R.mul (.fin alpha) (M.R.sub 1 (.fin delta)) → .fin w ≤ M.R.mul (.fin alpha) (.fin delta) →
        .fin w ≤ M.R.sub 1 (.fin alpha) → w ≤ x := by
  obtain ⟨e1, e2, e3, h1, h2, h3', hm, b1, b2, b3, u1, u2, u3⟩ := exps M c k hk b s eB eS mu alpha delta hb hs hmu hL1 hL2
  have l1 : e1 ≤ max (max e1 e2) e3 := (le_max_left _ _).trans (le_max_left _ _)
  have l2 : e2 ≤ max (max e1 e2) e3 := (le_max_right _ _).trans (le_max_left _ _)
  have l3 : e3 ≤ max (max e1 e2) e3 := le_max_right _ _
  have m0 : max (max e1 e2) e3 ≤ 0 := max_le (max_le u1 u2) u3
  have hm' : max (max e1 e2) e3 = e1 ∨ max (max e1 e2) e3 = e2 ∨ max (max e1 e2) e3 = e3 := by
    rcases max_choice (max e1 e2) e3 with h | h
    · rcases max_choice e1 e2 with h' | h'
      · exact Or.inl (h.trans h')
      · exact Or.inr (Or.inl (h.trans h'))
    · exact Or.inr (Or.inr h)
  generalize max (max e1 e2) e3 = m at hm l1 l2 l3 m0 hm'
  have hp1 : 1 ≤ 2 ^ M.R.prec := by omega
  obtain ⟨v1, g1, n1⟩ := sub_nonpos M l1 hk (by linarith)
  obtain ⟨v2, g2, n2⟩ := sub_nonpos M l2 hk (by linarith)
  obtain ⟨v3, g3, n3⟩ := sub_nonpos M l3 hk (by linarith)
  have pa : Pos 1 (.fin alpha) := ⟨alpha, rfl, ha.1, by simpa using ha.2⟩
  have pd : Pos 1 (.fin delta) := ⟨delta, rfl, hd.1, by simpa using hd.2⟩
  have w1 : Pos 1 (M.R.mul (.fin alpha) (M.R.sub 1 (.fin delta))) := mul_pos (by omega) pa (one_sub M hp1 hd.1 hd.2)
  have w2 : Pos 1 (M.R.mul (.fin alpha) (.fin delta)) := mul_pos (by omega) pa pd
  have w3 : Pos 1 (M.R.sub 1 (.fin alpha)) := one_sub M hp1 ha.1 ha.2
  have r1 := Rounding.rep_mul (R := M.R) (.fin alpha) (M.R.sub 1 (.fin delta))
  have r2 := Rounding.rep_mul (R := M.R) (.fin alpha) (.fin delta)
  have r3 := Rounding.rep_sub (R := M.R) 1 (.fin alpha)
  have x1 := hexp.1 v1 n1
  have x2 := hexp.1 v2 n2
  have x3 := hexp.1 v3 n3
  have key : ∀ {e v : ℝ} {w : XR}, m = e → M.R.sub (.fin e) (.fin m) = .fin v → M.R.Rep w → Pos 1 w → M.R.mul w (M.exp (.fin v)) = w := by
    intro e v w he hv hr hw
    subst he
    unfold Rounding.sub at hv
    rw [XR.fin_sub, sub_self, Rounding.round_fin, Rounding.rd_zero] at hv
    cases hv
    obtain ⟨y, rfl, -, -⟩ := hw
    rw [hexp.2]
    unfold Rounding.mul
    rw [XR.fin_mul, mul_one]
    exact hr
  unfold Model.Rounded.lkMix
  rw [h1, h2, h3', hm, g1, g2, g3]
  have k1 := fun he => key (e := e1) he g1 r1 w1
  have k2 := fun he => key (e := e2) he g2 r2 w2
  have k3 := fun he => key (e := e3) he g3 r3 w3
  have t1 := mul_pos (R := M.R) (by omega) w1 x1
  have t2 := mul_pos (R := M.R) (by omega) w2 x2
  have t3 := mul_pos (R := M.R) (by omega) w3 x3
  have q1 := Rounding.rep_mul (R := M.R) (M.R.mul (.fin alpha) (M.R.sub 1 (.fin delta))) (M.exp (.fin v1))
  have q2 := Rounding.rep_mul (R := M.R) (M.R.mul (.fin alpha) (.fin delta)) (M.exp (.fin v2))
  have q3 := Rounding.rep_mul (R := M.R) (M.R.sub 1 (.fin alpha)) (M.exp (.fin v3))
  generalize M.R.mul (M.R.mul (.fin alpha) (M.R.sub 1 (.fin delta))) (M.exp (.fin v1)) = T1 at *
  generalize M.R.mul (M.R.mul (.fin alpha) (.fin delta)) (M.exp (.fin v2)) = T2 at *
  generalize M.R.mul (M.R.sub 1 (.fin alpha)) (M.exp (.fin v3)) = T3 at *
  have s12 := add_pos (R := M.R) (by omega) t1 t2
  have p12 := Rounding.rep_add (R := M.R) T1 T2
  have s123 := add_pos (R := M.R) (by omega) s12 t3
  have c1 := Rounding.le_add_right (R := M.R) q1 t1.nonneg t2.nonneg
  have c2 := Rounding.le_add_left (R := M.R) q2 t1.nonneg t2.nonneg
  have c12 := Rounding.le_add_right (R := M.R) p12 s12.nonneg t3.nonneg
  have c3 := Rounding.le_add_left (R := M.R) q3 s12.nonneg t3.nonneg
  obtain ⟨x, e, x0, xu⟩ := s123
  refine ⟨x, e, x0, by push_cast at xu; linarith, fun w a1 a2 a3 => ?_⟩
  rw [e] at c12 c3
  rcases hm' with h | h | h
  · rw [← k1 h] at a1
    exact XR.fin_le.mp (XR.le_trans' a1 (XR.le_trans' c1 c12))
  · rw [← k2 h] at a2
    exact XR.fin_le.mp (XR.le_trans' a2 (XR.le_trans' c2 c12))
  · rw [← k3 h] at a3
    exact XR.fin_le.mp (XR.le_trans' a3 c3)

/-- the first part of a day -/
theorem day1 (M : Machine) (c k : ℕ) (hk : c * (4 * k + 3) ≤ 2 ^ M.R.prec) (b s eB eS mu alpha delta : ℝ)
    (hb : 0 ≤ b ∧ b ≤ c) (hs : 0 ≤ s ∧ s ≤ c) (hmu : 0 ≤ mu ∧ mu ≤ c) (heB : 0 ≤ eB ∧ eB ≤ c) (heS : 0 ≤ eS ∧ eS ≤ c)
    (hL1 : Pos k (M.log (M.R.add 1 (M.R.div (.fin mu) (.fin eS))))) (hL2 : Pos k (M.log (M.R.add 1 (M.R.div (.fin mu) (.fin eB)))))
    (hG1 : Bd k (M.log (M.R.add (.fin mu) (.fin eB)))) (hG2 : Bd k (M.log (M.R.add (.fin mu) (.fin eS)))) :
    Bd (c * (4 * k + 3)) (Model.Rounded.lkDay1 M ⟨.fin alpha, .fin delta, .fin eB, .fin eS, .fin mu⟩ (.fin b) (.fin s)) := by
  have e : c * (4 * k + 3) = c + c + c * k + c * k + (c + 2 * c * k) := by ring
  have e' : 2 * c * k = c * k + c * k := by ring
  rw [e] at hk ⊢
  obtain ⟨e1, e2, e3, -, -, -, hm, b1, b2, b3, u1, u2, u3⟩ := exps M c k (by omega) b s eB eS mu alpha delta hb hs hmu hL1 hL2
  have hmax : Bd (c + 2 * c * k) (Model.Rounded.lkMax M (.fin b) (.fin s) ⟨.fin alpha, .fin delta, .fin eB, .fin eS, .fin mu⟩) := by
    rw [hm]
    refine ⟨_, rfl, ?_⟩
    rw [abs_of_nonpos (max_le (max_le u1 u2) u3)]
    have := b3.trans (le_max_right (max e1 e2) e3)
    linarith
  have pb : Bd c (.fin b) := Pos.bd ⟨b, rfl, hb.1, hb.2⟩
  have ps : Bd c (.fin s) := Pos.bd ⟨s, rfl, hs.1, hs.2⟩
  have nB : Neg c (-(.fin eB)) := Pos.neg ⟨eB, rfl, heB.1, heB.2⟩
  unfold Model.Rounded.lkDay1
  exact add_bd hk (add_bd (by omega) (add_bd (by omega) (sub_neg (by omega) nB ⟨eS, rfl, heS.1, heS.2⟩).bd
    (mul_bd (by omega) pb hG1)) (mul_bd (by omega) ps hG2)) hmax

/-- sums of terms that are at most 2, infinitely negative ones allowed -/
theorem add_le {R : Rounding} {m n : ℕ} (hn : m + n ≤ 2 ^ R.prec) {x y : XR} (hx : Bd m x) (hy : y ≤ .fin n) :
    R.add x y ≤ .fin ((m + n : ℕ)) := by
  obtain ⟨a, rfl, ha⟩ := hx
  apply Rounding.round_le (Rounding.rep_nat hn)
  rcases y with _ | _ | _ | y
  · exact hy.elim
  · trivial
  · exact hy.elim
  · rw [XR.fin_add]
    refine XR.fin_le.mpr ?_
    push_cast
    have := XR.fin_le.mp hy
    have := (abs_le.mp ha).2
    linarith

end PinFloat

open PinFloat

/-- C209. Lin and Ke's likelihood never overflows: for any number of days with counts between 0 and `c`, admissible parameters with
rates up to `c`, and logarithms of the intensities of absolute value at most `k` (1500 for any doubles), the computed objective
is a number or plus infinity - not NaN and not minus infinity. Counts and rates up to `c = 10^6`, `k = 50` and a million days are
within the range. -/
theorem C209_lk_not_nan (M : Machine) (hexp : PinFloat.ExpOk M) (hlog : ∀ x : ℝ, 0 ≤ x → x ≤ 3 → M.log (.fin x) ≤ .fin 2) (c k : ℕ)
    (days : List (ℝ × ℝ)) (hdays : ∀ d ∈ days, 0 ≤ d.1 ∧ d.1 ≤ c ∧ 0 ≤ d.2 ∧ d.2 ≤ c)
    (alpha delta eB eS mu : ℝ) (ha : 0 ≤ alpha ∧ alpha ≤ 1) (hd : 0 ≤ delta ∧ delta ≤ 1) (heB : 0 ≤ eB ∧ eB ≤ c) (heS : 0 ≤ eS ∧ eS ≤ c)
    (hmu : 0 ≤ mu ∧ mu ≤ c)
    (hL1 : Pos k (M.log (M.R.add 1 (M.R.div (.fin mu) (.fin eS))))) (hL2 : Pos k (M.log (M.R.add 1 (M.R.div (.fin mu) (.fin eB)))))
    (hG1 : Bd k (M.log (M.R.add (.fin mu) (.fin eB)))) (hG2 : Bd k (M.log (M.R.add (.fin mu) (.fin eS))))
    (hN : c * (4 * k + 3) * days.length + 2 * days.length ≤ 2 ^ M.R.prec) (hne : days ≠ []) (h3 : 3 ≤ 2 ^ M.R.prec) :
    .fin (-((c * (4 * k + 3) * days.length + 2 * days.length : ℕ) : ℝ)) ≤
      Model.Rounded.lk2011 M (days.map fun d => .fin d.1) (days.map fun d => .fin d.2)
        ⟨.fin alpha, .fin delta, .fin eB, .fin eS, .fin mu⟩ := by
  have hl : 0 < days.length := List.length_pos_iff.mpr hne
  have hc : c * (4 * k + 3) ≤ c * (4 * k + 3) * days.length := Nat.le_mul_of_pos_right _ hl
  have hc' : c + 2 * c * k ≤ c * (4 * k + 3) := by
    have : c * (4 * k + 3) = c + 2 * c * k + (2 * c * k + 2 * c) := by ring
    omega
  have z : ∀ f : XR → XR → XR, List.zipWith f (days.map fun d => .fin d.1) (days.map fun d => .fin d.2) =
      days.map fun d => f (.fin d.1) (.fin d.2) := by
    intro f
    rw [List.zipWith_map_left, List.zipWith_map_right, List.zipWith_self]
  unfold Model.Rounded.lk2011
  rw [z, z]
  have s1 := sum_bd (M.sum_ok 0 (days.map fun d =>
    Model.Rounded.lkDay1 M ⟨.fin alpha, .fin delta, .fin eB, .fin eS, .fin mu⟩ (.fin d.1) (.fin d.2))) (c * (4 * k + 3))
    (by rw [List.length_map]; omega) (by
      intro x hx
      obtain ⟨d, hd', rfl⟩ := List.mem_map.mp hx
      obtain ⟨a1, a2, a3, a4⟩ := hdays d hd'
      exact day1 M c k (by omega) d.1 d.2 eB eS mu alpha delta ⟨a1, a2⟩ ⟨a3, a4⟩ hmu heB heS hL1 hL2 hG1 hG2)
  rw [List.length_map] at s1
  have s2 := RoundedLik.sum_le (M.sum_ok 1 (days.map fun d => M.log
    (Model.Rounded.lkMix M ⟨.fin alpha, .fin delta, .fin eB, .fin eS, .fin mu⟩ (.fin d.1) (.fin d.2)))) 2
    (by rw [List.length_map]; omega) (by
      intro x hx
      obtain ⟨d, hd', rfl⟩ := List.mem_map.mp hx
      obtain ⟨a1, a2, a3, a4⟩ := hdays d hd'
      obtain ⟨y, e, y0, y3, -⟩ := mix M hexp c k (by omega) h3 d.1 d.2 eB eS mu alpha delta ⟨a1, a2⟩ ⟨a3, a4⟩ hmu ha hd hL1 hL2
      rw [e]
      exact hlog y y0 y3)
  rw [List.length_map] at s2
  exact XR.neg_le' (add_le hN s1 s2)

/-- C209. ... and it is a finite number of known size when no weight of the mixture is below `w > 0`. -/
theorem C209_lk_finite (M : Machine) (hexp : PinFloat.ExpOk M) (c k : ℕ) (w : ℝ)
    (hlog : ∀ x : ℝ, w ≤ x → x ≤ 3 → Bd k (M.log (.fin x)))
    (days : List (ℝ × ℝ)) (hdays : ∀ d ∈ days, 0 ≤ d.1 ∧ d.1 ≤ c ∧ 0 ≤ d.2 ∧ d.2 ≤ c)
    (alpha delta eB eS mu : ℝ) (ha : 0 ≤ alpha ∧ alpha ≤ 1) (hd : 0 ≤ delta ∧ delta ≤ 1) (heB : 0 ≤ eB ∧ eB ≤ c) (heS : 0 ≤ eS ∧ eS ≤ c)
    (hmu : 0 ≤ mu ∧ mu ≤ c)
    (hw : .fin w ≤ M.R.mul (.fin alpha) (M.R.sub 1 (.fin delta)) ∧ .fin w ≤ M.R.mul (.fin alpha) (.fin delta) ∧
      .fin w ≤ M.R.sub 1 (.fin alpha))
    (hL1 : Pos k (M.log (M.R.add 1 (M.R.div (.fin mu) (.fin eS))))) (hL2 : Pos k (M.log (M.R.add 1 (M.R.div (.fin mu) (.fin eB)))))
    (hG1 : Bd k (M.log (M.R.add (.fin mu) (.fin eB)))) (hG2 : Bd k (M.log (M.R.add (.fin mu) (.fin eS))))
    (hN : c * (4 * k + 3) * days.length + k * days.length ≤ 2 ^ M.R.prec) (hne : days ≠ []) (h3 : 3 ≤ 2 ^ M.R.prec) :
    ∃ v : ℝ, Model.Rounded.lk2011 M (days.map fun d => .fin d.1) (days.map fun d => .fin d.2)
        ⟨.fin alpha, .fin delta, .fin eB, .fin eS, .fin mu⟩ = .fin v ∧
      |v| ≤ ((c * (4 * k + 3) * days.length + k * days.length : ℕ) : ℝ) := by
  have hl : 0 < days.length := List.length_pos_iff.mpr hne
  have hc : c * (4 * k + 3) ≤ c * (4 * k + 3) * days.length := Nat.le_mul_of_pos_right _ hl
  have hc' : c + 2 * c * k ≤ c * (4 * k + 3) := by
    have : c * (4 * k + 3) = c + 2 * c * k + (2 * c * k + 2 * c) := by ring
    omega
  have z : ∀ f : XR → XR → XR, List.zipWith f (days.map fun d => .fin d.1) (days.map fun d => .fin d.2) =
      days.map fun d => f (.fin d.1) (.fin d.2) := by
    intro f
    rw [List.zipWith_map_left, List.zipWith_map_right, List.zipWith_self]
  unfold Model.Rounded.lk2011
  rw [z, z]
  have s1 := sum_bd (M.sum_ok 0 (days.map fun d =>
    Model.Rounded.lkDay1 M ⟨.fin alpha, .fin delta, .fin eB, .fin eS, .fin mu⟩ (.fin d.1) (.fin d.2))) (c * (4 * k + 3))
    (by rw [List.length_map]; omega) (by
      intro x hx
      obtain ⟨d, hd', rfl⟩ := List.mem_map.mp hx
      obtain ⟨a1, a2, a3, a4⟩ := hdays d hd'
      exact day1 M c k (by omega) d.1 d.2 eB eS mu alpha delta ⟨a1, a2⟩ ⟨a3, a4⟩ hmu heB heS hL1 hL2 hG1 hG2)
  rw [List.length_map] at s1
  have s2 := sum_bd (M.sum_ok 1 (days.map fun d => M.log
    (Model.Rounded.lkMix M ⟨.fin alpha, .fin delta, .fin eB, .fin eS, .fin mu⟩ (.fin d.1) (.fin d.2)))) k
    (by rw [List.length_map]; omega) (by
      intro x hx
      obtain ⟨d, hd', rfl⟩ := List.mem_map.mp hx
      obtain ⟨a1, a2, a3, a4⟩ := hdays d hd'
      obtain ⟨y, e, y0, y3, yw⟩ := mix M hexp c k (by omega) h3 d.1 d.2 eB eS mu alpha delta ⟨a1, a2⟩ ⟨a3, a4⟩ hmu ha hd hL1 hL2
      rw [e]
      exact hlog y (yw w hw.1 hw.2.1 hw.2.2) y3)
  rw [List.length_map] at s2
  obtain ⟨v, e, b⟩ := add_bd hN s1 s2
  rw [e]
  exact ⟨-v, rfl, by rwa [abs_neg]⟩

namespace PinFloat

theorem term_nan {R : Rounding} (w : ℝ) (p : XR) : R.mul (R.mul (R.mul (.fin w) (.fin 0)) p) .pinf = .nan := by
  have e : R.mul (.fin w) (.fin 0) = .fin 0 := by
    unfold Rounding.mul
    rw [XR.fin_mul, mul_zero, Rounding.round_fin, Rounding.rd_zero]
  rw [e]
  have h : R.mul (.fin 0) p = .nan ∨ R.mul (.fin 0) p = .fin 0 := by
    unfold Rounding.mul
    rcases p with _ | _ | _ | p
    · left; rfl
    · left
      show R.round (XR.infSign _) = _
      rw [neg_zero, XR.infSign_zero]; rfl
    · left
      show R.round (XR.infSign _) = _
      rw [XR.infSign_zero]; rfl
    · right
      rw [XR.fin_mul, zero_mul, Rounding.round_fin, Rounding.rd_zero]
  rcases h with h | h <;> rw [h] <;> unfold Rounding.mul
  · rfl
  · show R.round (XR.infSign _) = _
    rw [XR.infSign_zero]; rfl

theorem add_nan {R : Rounding} (x : XR) : R.add x .nan = .nan ∧ R.add .nan x = .nan := by
  unfold Rounding.add
  cases x <;> exact ⟨rfl, rfl⟩

/-- half of a count is a binary64 number -/
theorem half_rep (M : Machine) (hM : M.R = binary64.rounding) (n : ℕ) (hn : n ≤ 2 ^ 53) : M.R.div (.fin n) 2 = .fin ((n : ℝ) / 2) := by
  have := Rounded.ieee_dyadic n (-1) hn (by norm_num) (by norm_num)
  rw [show ((n : ℝ) * 2 ^ (-1 : ℤ)) = n / 2 by rw [zpow_neg_one]; ring] at this
  unfold Rounding.div
  rw [XR.ofNat_def, XR.fin_div _ (by norm_num), hM]
  exact_mod_cast this

/-- the exponent `M` of an active day -/
theorem eho_m (M : Machine) (hM : M.R = binary64.rounding) (b s : ℕ) (hb : b ≤ 2 ^ 52) (hs : s ≤ 2 ^ 52)
    (h : 2050 ≤ 2 * min b s + max b s) : ∃ m : ℝ, Model.Rounded.ehoM M (.fin b) (.fin s) = .fin m ∧ 1025 ≤ m := by
  unfold Model.Rounded.ehoM
  have e1 : min (b : ℝ) s = ((min b s : ℕ) : ℝ) := by push_cast; rfl
  have e2 : max (b : ℝ) s = ((max b s : ℕ) : ℝ) := by push_cast; rfl
  rw [XR.npMin_fin, XR.npMax_fin, e1, e2, half_rep M hM _ (by omega)]
  unfold Rounding.add
  rw [XR.fin_add, Rounding.round_fin]
  have hp : M.R.prec = 53 := by rw [hM]; rfl
  have h52 : ((max b s : ℕ) : ℝ) ≤ 2 ^ 52 := by exact_mod_cast (by omega : max b s ≤ 2 ^ 52)
  have h52' : ((min b s : ℕ) : ℝ) ≤ 2 ^ 52 := by exact_mod_cast (by omega : min b s ≤ 2 ^ 52)
  have h' : (2050 : ℝ) ≤ 2 * ((min b s : ℕ) : ℝ) + ((max b s : ℕ) : ℝ) := by exact_mod_cast h
  obtain ⟨v, e, -, -⟩ := rd_pos (R := M.R) (n := 2 ^ 53) (by rw [hp]) (v := ((min b s : ℕ) : ℝ) + ((max b s : ℕ) : ℝ) / 2)
    (by positivity) (by push_cast at h52 h52' ⊢; linarith)
  have := Rounding.le_round (R := M.R) (x := .fin 1025) (y := .fin (((min b s : ℕ) : ℝ) + ((max b s : ℕ) : ℝ) / 2))
    (by have := Rounding.rep_nat (R := M.R) (n := 1025) (by rw [hp]; norm_num); exact_mod_cast this) (XR.fin_le.mpr (by linarith))
  rw [Rounding.round_fin, e] at this
  exact ⟨v, e, XR.fin_le.mp this⟩

/-- a rate not above the rate of informed trading: its share of the total is at most one half -/
theorem share_le (M : Machine) (hM : M.R = binary64.rounding) (mu e : ℝ) (he : 0 ≤ e) (hmu : 1 ≤ mu) (h : e ≤ mu) (hr : M.R.Rep (.fin e)) :
    ∃ x : ℝ, M.R.div (.fin e) (M.R.add (.fin mu) (.fin e)) = .fin x ∧ 0 ≤ x ∧ x ≤ 1 / 2 := by
  have hhalf : M.R.Rep (.fin (1 / 2)) := by rw [hM]; exact Rounded.ieee_half
  have hpos : M.R.add (.fin mu) (.fin e) = .pinf ∨ ∃ y : ℝ, M.R.add (.fin mu) (.fin e) = .fin y ∧ 2 * e ≤ y := by
    unfold Rounding.add
    rw [XR.fin_add, Rounding.round_fin]
    have h1 := M.R.mono (2 * e) (mu + e) (by linarith)
    rcases M.R.double e he hr with h2 | h2 <;> rw [h2] at h1 <;> rcases hv : M.R.rd (mu + e) with _ | _ | _ | y <;> rw [hv] at h1
    · exact h1.elim
    · exact h1.elim
    · exact Or.inl rfl
    · exact Or.inr ⟨y, rfl, XR.fin_le.mp h1⟩
    · exact h1.elim
    · exact h1.elim
    · exact Or.inl rfl
    · exact h1.elim
  have fin : ∀ v : ℝ, 0 ≤ v → v ≤ 1 / 2 → ∃ x : ℝ, M.R.rd v = .fin x ∧ 0 ≤ x ∧ x ≤ 1 / 2 := by
    intro v h0 h1
    obtain ⟨x, e, x0, -⟩ := rd_pos (R := M.R) (n := 1) Nat.one_le_two_pow h0 (by push_cast; linarith)
    have := Rounding.round_le (R := M.R) (x := .fin v) hhalf (XR.fin_le.mpr h1)
    rw [Rounding.round_fin, e] at this
    exact ⟨x, e, x0, XR.fin_le.mp this⟩
  rcases hpos with h1 | ⟨y, h1, hy⟩ <;> rw [h1] <;> unfold Rounding.div
  · show ∃ x : ℝ, M.R.rd 0 = _ ∧ _
    exact fin 0 le_rfl (by norm_num)
  · have y0 : 0 < y := by
      rcases he.eq_or_lt with rfl | he'
      · unfold Rounding.add at h1
        rw [XR.fin_add, add_zero] at h1
        have := Rounding.le_round (R := M.R) (x := .fin 1) (y := .fin mu) Rounding.rep_one (XR.fin_le.mpr hmu)
        rw [h1] at this
        have := XR.fin_le.mp this
        linarith
      · linarith
    rw [XR.fin_div _ y0.ne', Rounding.round_fin]
    exact fin _ (by positivity) (by rw [div_le_iff₀ y0]; linarith)

/-- in binary64 a number below half of the smallest positive one is rounded to zero -/
theorem rd_tiny {x : ℝ} (h0 : 0 ≤ x) (h : x < 2 ^ (-1075 : ℤ)) : binary64.rd x = .fin 0 := by
  rcases h0.eq_or_lt with rfl | h0
  · exact Rounding.rd_zero (R := binary64.rounding)
  rw [Format.rd_of_nonneg h0.le]
  have hl : Int.log 2 x ≤ -1022 := by
    have : x < (2 : ℝ) ^ (-1021 : ℤ) := h.trans (zpow_lt_zpow_right₀ (by norm_num) (by norm_num))
    have := (Int.lt_zpow_iff_log_lt (b := 2) (by norm_num) h0 (x := -1021)).mp (by exact_mod_cast this)
    omega
  have he : binary64.ulp x = 2 ^ (-1074 : ℤ) := by
    unfold Format.ulp Format.expo
    show (2 : ℝ) ^ (max (Int.log 2 x) (-1022) - (53 - 1) : ℤ) = _
    rw [max_eq_right hl]
    norm_num
  have hv : binary64.val x = 0 := by
    unfold Format.val
    rw [he]
    have : nearestEven (x / 2 ^ (-1074 : ℤ)) = 0 := by
      apply nearestEven_eq
      left
      rw [Int.cast_zero, sub_zero, abs_of_pos (by positivity), div_lt_iff₀ (by positivity)]
      refine h.trans_le (le_of_eq ?_)
      rw [show (-1075 : ℤ) = -1 + -1074 by norm_num, zpow_add₀ (by norm_num)]
      norm_num
    rw [this]
    simp
  unfold Format.posRd
  rw [hv, if_neg (by rw [not_le]; positivity)]

theorem ieee_exp0 (x : ℝ) (h : x ≤ -746) : Machine.ieee.exp (.fin x) = .fin 0 := by
  show binary64.rounding.round (XR.exp (.fin x)) = _
  rw [XR.fin_exp, Rounding.round_fin]
  apply rd_tiny (Real.exp_pos x).le
  have h1 : Real.exp x ≤ Real.exp (-746) := Real.exp_le_exp.mpr h
  refine lt_of_le_of_lt h1 ?_
  have h2 : (2 : ℝ) ^ (-1075 : ℤ) = Real.exp (-(1075 * Real.log 2)) := by
    rw [Real.exp_neg, show (1075 : ℝ) * Real.log 2 = ((1075 : ℕ) : ℝ) * Real.log 2 by norm_num, Real.exp_nat_mul,
      Real.exp_log (by norm_num)]
    rfl
  rw [h2]
  apply Real.exp_lt_exp.mpr
  have := Real.log_two_lt_d9
  linarith

theorem ieee_overflow (x : ℝ) (h : 2 ^ (1025 : ℤ) ≤ x) : binary64.rd x = .pinf := by
  have h1 : binary64.rd (2 ^ (1025 : ℤ)) = .pinf := by
    rw [Format.rd_of_nonneg (by positivity)]
    have := Format.val_exact (F := binary64) 1 1025 Nat.one_le_two_pow (by show (-1022 : ℤ) - (53 - 1) ≤ 1025; norm_num)
    rw [Nat.cast_one, one_mul] at this
    unfold Format.posRd
    rw [this, if_pos]
    exact zpow_le_zpow_right₀ (by norm_num) (by decide)
  have := Format.rd_mono (F := binary64) h
  rw [h1] at this
  have hn := Rounding.rd_ne_nan (R := binary64.rounding) x
  generalize binary64.rd x = z at this
  cases z <;> first | rfl | exact this.elim | exact absurd this (XR.not_le_nan _)

/-- the correctly rounded power function -/
def ieeePow (x y : XR) : XR := binary64.rounding.round (XR.rpow x y)

theorem ieee_pow (x y : ℝ) (h0 : 0 ≤ x) (h1 : x ≤ 1 / 2) (hy : 1025 ≤ y) : ieeePow (.fin x) (.fin (-y)) = .pinf := by
  unfold ieeePow
  rcases h0.eq_or_lt with rfl | h0
  · have : XR.rpow (.fin 0) (.fin (-y)) = .pinf := by
      simp only [XR.rpow]
      rw [if_neg (lt_irrefl _)]
      simp only [if_true]
      rw [if_neg (by linarith), if_neg (by linarith)]
    rw [this]; rfl
  · rw [XR.fin_rpow _ h0, Rounding.round_fin]
    apply ieee_overflow
    have a : (2 : ℝ) ^ (1025 : ℤ) = (2 : ℝ) ^ ((1025 : ℕ) : ℝ) := by rw [Real.rpow_natCast]; rfl
    rw [a, Real.rpow_neg h0.le, ← Real.inv_rpow h0.le]
    have h2 : 2 ≤ x⁻¹ := by rw [le_inv_comm₀ (by norm_num) h0]; linarith
    calc (2 : ℝ) ^ ((1025 : ℕ) : ℝ) ≤ 2 ^ y := Real.rpow_le_rpow_of_exponent_le (by norm_num) (by push_cast; exact hy)
      _ ≤ _ := Real.rpow_le_rpow (by norm_num) h2 (by linarith)

end PinFloat

/-- C209. Easley, Hvidkjaer and O'Hara's likelihood is not a number for actively traded stocks: in binary64, if one day has at least
2050 trades counting the smaller side twice, the rate of informed trading is 746 or more and not below one of the two uninformed rates, the
computed objective is NaN - whatever the other days and parameters. (`exp(-mu)` underflows to 0 while a power overflows.) The machine's
`exp` and power are only assumed to underflow and overflow where the correctly rounded ones do. -/
theorem C209_eho_nan (M : Machine) (hM : M.R = binary64.rounding) (pow : XR → XR → XR)
    (hexp : ∀ x : ℝ, x ≤ -746 → M.exp (.fin x) = .fin 0) (hlog : M.log .nan = .nan)
    (hpow : ∀ x y : ℝ, 0 ≤ x → x ≤ 1 / 2 → 1025 ≤ y → pow (.fin x) (.fin (-y)) = .pinf)
    (days : List (ℕ × ℕ)) (active : ∃ d ∈ days, d.1 ≤ 2 ^ 52 ∧ d.2 ≤ 2 ^ 52 ∧ 2050 ≤ 2 * min d.1 d.2 + max d.1 d.2)
    (alpha delta eB eS mu : ℝ) (ha : 0 ≤ alpha ∧ alpha ≤ 1) (hd : 0 ≤ delta ∧ delta ≤ 1) (hmu : 746 ≤ mu)
    (he : (0 ≤ eB ∧ eB ≤ mu ∧ M.R.Rep (.fin eB)) ∨ (0 ≤ eS ∧ eS ≤ mu ∧ M.R.Rep (.fin eS))) :
    Model.Rounded.eho2010 M pow (days.map fun d => .fin d.1) (days.map fun d => .fin d.2)
      ⟨.fin alpha, .fin delta, .fin eB, .fin eS, .fin mu⟩ = .nan := by
  obtain ⟨d, hd', h1, h2, h3⟩ := active
  obtain ⟨m, em, m1⟩ := eho_m M hM d.1 d.2 h1 h2 h3
  have hp : 1 ≤ 2 ^ M.R.prec := Nat.one_le_two_pow
  have pa : Pos 1 (.fin alpha) := ⟨alpha, rfl, ha.1, by simpa using ha.2⟩
  have pd : Pos 1 (.fin delta) := ⟨delta, rfl, hd.1, by simpa using hd.2⟩
  obtain ⟨w1, e1, -, -⟩ : Pos (1 * 1) (M.R.mul (.fin alpha) (M.R.sub 1 (.fin delta))) := mul_pos (by omega) pa (one_sub M hp hd.1 hd.2)
  obtain ⟨w2, e2, -, -⟩ : Pos (1 * 1) (M.R.mul (.fin alpha) (.fin delta)) := mul_pos (by omega) pa pd
  have hx : M.exp (-(.fin mu)) = .fin 0 := hexp (-mu) (by linarith)
  have hmix : Model.Rounded.ehoMix M pow ⟨.fin alpha, .fin delta, .fin eB, .fin eS, .fin mu⟩ (.fin d.1) (.fin d.2) = .nan := by
    unfold Model.Rounded.ehoMix
    simp only [em, hx, e1, e2]
    rcases he with ⟨b0, b1, b2⟩ | ⟨b0, b1, b2⟩
    · obtain ⟨x, ex, x0, x1⟩ := share_le M hM mu eB b0 (by linarith) b1 b2
      rw [ex, show pow (.fin x) (-(.fin m)) = .pinf from hpow x m x0 x1 m1, term_nan, (add_nan _).2, (add_nan _).2]
    · obtain ⟨x, ex, x0, x1⟩ := share_le M hM mu eS b0 (by linarith) b1 b2
      rw [ex, show pow (.fin x) (-(.fin m)) = .pinf from hpow x m x0 x1 m1, term_nan, (add_nan _).1, (add_nan _).2]
  have z : ∀ f : XR → XR → XR, List.zipWith f (days.map fun d => .fin d.1) (days.map fun d => .fin d.2) =
      days.map fun d => f (.fin d.1) (.fin d.2) := by
    intro f
    rw [List.zipWith_map_left, List.zipWith_map_right, List.zipWith_self]
  unfold Model.Rounded.eho2010
  rw [z, z, sum_nan (M.sum_ok 1 _) (List.mem_map.mpr ⟨d, hd', by rw [hmix]; exact hlog⟩), (add_nan _).1]
  rfl

/-- C209. Without rounding the two objectives are those of the exact model. -/
theorem C209_exact (B S : List XR) (p : PinVec) :
    Model.Rounded.lk2011 Machine.exact B S p = Model.lk2011 B S p ∧
    Model.Rounded.eho2010 Machine.exact XR.rpow B S p = Model.eho2010 B S p := by
  have a := fun x y => (RoundedDcc.exact_ops x y).1
  have b := fun x y => (RoundedDcc.exact_ops x y).2.1
  have c := fun x y => (RoundedDcc.exact_ops x y).2.2.1
  have d := fun x y => (RoundedDcc.exact_ops x y).2.2.2
  have e : ∀ i l, Machine.exact.sum i l = l.sum := fun _ _ => rfl
  have f : Machine.exact.exp = XR.exp := rfl
  have g : Machine.exact.log = XR.log := rfl
  constructor
  · have h1 : Model.Rounded.lkDay1 Machine.exact p = fun b s => -p.eB - p.eS + b * XR.log (p.mu + p.eB) + s * XR.log (p.mu + p.eS) +
        Model.Rounded.lkMax Machine.exact b s p := by
      funext x y
      simp only [Model.Rounded.lkDay1, a, b, c, d, e, f, g]
    simp only [Model.Rounded.lk2011, Model.lk2011, h1, Model.Rounded.lkMix, Model.Rounded.lkMax, Model.Rounded.lkE1,
      Model.Rounded.lkE2, Model.Rounded.lkE3, a, b, c, d, e, f, g]
  · have h1 : Model.Rounded.ehoDay1 Machine.exact p = fun b s => -p.eB - p.eS + Model.Rounded.ehoM Machine.exact b s *
        (XR.log (p.eB / (p.mu + p.eB)) + XR.log (p.eS / (p.mu + p.eS))) + b * XR.log (p.mu + p.eB) + s * XR.log (p.mu + p.eS) := by
      funext x y
      simp only [Model.Rounded.ehoDay1, a, b, c, d, e, f, g]
    simp only [Model.Rounded.eho2010, Model.eho2010, h1, Model.Rounded.ehoMix, Model.Rounded.ehoM, a, b, c, d, e, f, g]

/-- C209. What `estimate` makes of it: if the objective is NaN wherever a successful minimisation ends, the estimate is the last of them, with
a NaN likelihood and the success flag set. -/
theorem C209_silent (mini : PinMinimizer) (o : PinObj) (method : String) (hm : method = "EHO2010" ∨ method = "LK2011")
    (pre : List OptRes) (r : OptRes) (hs : successes mini o.B o.S method = pre ++ [r])
    (hnan : ∀ q ∈ successes mini o.B o.S method, q.f = .nan) :
    ∃ o', pinEstimate mini o method = .ok (o', ⟨r.x, .nan, calculatePin r.x, method⟩) ∧ o'.success = true := by
  have hno : ¬ (method ≠ "EHO2010" ∧ method ≠ "LK2011") := by tauto
  have key : ∀ (l : List OptRes) (q : PinObj), (q.params.loglikelihood = .nan) → (∀ r ∈ l.filter fun r => r.success, r.f = .nan) →
      ∀ pre r, (l.filter fun r => r.success) = pre ++ [r] →
        (l.foldl (pinAccept method) q).params = ⟨r.x, .nan, calculatePin r.x, method⟩ ∧ (l.foldl (pinAccept method) q).success = true := by
    intro l
    induction l using List.reverseRecOn with
    | nil => intro q _ _ pre r h; simp at h
    | append_singleton t a ih =>
      intro q hq hn pre r h
      rw [List.foldl_append, List.foldl_cons, List.foldl_nil]
      rw [List.filter_append] at h hn
      have hnt : ∀ r ∈ t.filter fun r => r.success, r.f = .nan := fun r hr => hn r (List.mem_append_left _ hr)
      by_cases ha : a.success
      · have e : [a].filter (fun r => r.success) = [a] := by simp [ha]
        rw [e] at h hn
        obtain ⟨-, h2⟩ := List.append_inj' h rfl
        cases h2
        have hll : (t.foldl (pinAccept method) q).params.loglikelihood = .nan := by
          rcases List.eq_nil_or_concat (t.filter fun r => r.success) with h0 | ⟨p', r', h0⟩
          · have : ∀ (t : List OptRes), (t.filter fun r => r.success) = [] → t.foldl (pinAccept method) q = q := by
              intro t ht
              induction t with
              | nil => rfl
              | cons x t ih =>
                rw [List.filter_cons] at ht
                split_ifs at ht with hx
                rw [List.foldl_cons, show pinAccept method q x = q by unfold pinAccept; rw [if_neg hx]]
                exact ih ht
            rw [this t h0]; exact hq
          · rw [List.concat_eq_append] at h0
            rw [(ih q hq hnt p' r' h0).1]
        have hf : a.f = .nan := hn a (by simp)
        generalize t.foldl (pinAccept method) q = q' at hll
        unfold pinAccept
        rw [if_pos ha, if_pos (Or.inl (by rw [hll]; rfl)), hf]
        exact ⟨rfl, rfl⟩
      · have e : [a].filter (fun r => r.success) = [] := by simp [ha]
        rw [e, List.append_nil] at h
        have e2 : ∀ q, pinAccept method q a = q := fun q => by unfold pinAccept; rw [if_neg ha]
        rw [e2]
        exact ih q hq hnt pre r h
  obtain ⟨h1, h2⟩ := key _ { o with params := {} } rfl hnan pre r hs
  refine ⟨_, ?_, h2⟩
  unfold pinEstimate
  rw [if_neg hno, List.foldl_map] at *
  simp only
  rw [h1]

namespace PinFloat

theorem ieee_expOk : ExpOk Machine.ieee := by
  constructor
  · intro x hx
    show Pos 1 (binary64.rounding.round (XR.exp (.fin x)))
    rw [XR.fin_exp, Rounding.round_fin]
    exact rd_pos Nat.one_le_two_pow (Real.exp_pos x).le (by push_cast; exact Real.exp_le_one_iff.mpr hx)
  · show binary64.rounding.round (XR.exp (.fin 0)) = _
    rw [XR.fin_exp, Real.exp_zero]
    exact Rounding.rep_one

theorem ieee_log_bd (x : ℝ) (h1 : 1 / 4 ≤ x) (h2 : x ≤ 2048) : Bd 8 (Machine.ieee.log (.fin x)) := by
  have h0 : 0 < x := by linarith
  show Bd 8 (binary64.rounding.round (XR.log (.fin x)))
  rw [XR.fin_log h0, Rounding.round_fin]
  apply rd_bd (show 8 ≤ 2 ^ 53 by norm_num)
  have a := Real.log_le_log (by norm_num) h1
  have b := Real.log_le_log h0 h2
  have c : Real.log (2048 : ℝ) = 11 * Real.log 2 := by
    rw [show (2048 : ℝ) = 2 ^ 11 by norm_num, Real.log_pow]; norm_num
  have d : Real.log (1 / 4 : ℝ) = -(2 * Real.log 2) := by
    rw [one_div, Real.log_inv, show (4 : ℝ) = 2 ^ 2 by norm_num, Real.log_pow]; norm_num
  rw [c] at b
  rw [d] at a
  have := Real.log_two_lt_d9
  have := Real.log_two_gt_d9
  rw [abs_le]
  constructor <;> push_cast <;> linarith

theorem ieee_nat (n : ℕ) (hn : n ≤ 2 ^ 53) : Machine.ieee.R.rd n = .fin n := Machine.ieee.R.nat n hn

end PinFloat

/-- A stock with 2000 purchases and 2000 sales on each of two days, 1000 of each expected to be uninformed and 1000 informed: one likelihood is
NaN, the other a number. -/
example : Model.Rounded.eho2010 Machine.ieee PinFloat.ieeePow ([(2000, 2000), (2000, 2000)].map fun d : ℕ × ℕ => .fin d.1)
      ([(2000, 2000), (2000, 2000)].map fun d : ℕ × ℕ => .fin d.2)
      ⟨.fin (1 / 2), .fin (1 / 2), .fin 1000, .fin 1000, .fin 1000⟩ = .nan ∧
    ∃ v : ℝ, Model.Rounded.lk2011 Machine.ieee ([(2000, 2000), (2000, 2000)].map fun d : ℝ × ℝ => .fin d.1)
      ([(2000, 2000), (2000, 2000)].map fun d : ℝ × ℝ => .fin d.2)
      ⟨.fin (1 / 2), .fin (1 / 2), .fin 1000, .fin 1000, .fin 1000⟩ = .fin v ∧ |v| ≤ 140016 := by
  have n1 := PinFloat.ieee_nat 1000 (by norm_num)
  have n2 := PinFloat.ieee_nat 2000 (by norm_num)
  have n3 := PinFloat.ieee_nat 2 (by norm_num)
  have n4 := PinFloat.ieee_nat 1 (by norm_num)
  push_cast at n1 n2 n3 n4
  constructor
  · exact C209_eho_nan Machine.ieee rfl PinFloat.ieeePow PinFloat.ieee_exp0 rfl PinFloat.ieee_pow _
      ⟨(2000, 2000), by simp, by norm_num, by norm_num, by norm_num⟩ _ _ _ _ _ (by norm_num) (by norm_num) (by norm_num)
      (Or.inl ⟨by norm_num, by norm_num, n1⟩)
  · have q : Machine.ieee.R.div (.fin 1000) (.fin 1000) = .fin 1 := by
      unfold Rounding.div
      rw [XR.fin_div _ (by norm_num), div_self (by norm_num)]
      exact n4
    have a1 : Machine.ieee.R.add 1 (.fin 1) = .fin 2 := by
      unfold Rounding.add
      rw [XR.one_def, XR.fin_add, show (1 : ℝ) + 1 = 2 by norm_num]
      exact n3
    have a2 : Machine.ieee.R.add (.fin 1000) (.fin 1000) = .fin 2000 := by
      unfold Rounding.add
      rw [XR.fin_add, show (1000 : ℝ) + 1000 = 2000 by norm_num]
      exact n2
    have hh := Rounded.ieee_half
    have a3 : Machine.ieee.R.sub 1 (.fin (1 / 2)) = .fin (1 / 2) := by
      unfold Rounding.sub
      rw [XR.one_def, XR.fin_sub, show (1 : ℝ) - 1 / 2 = 1 / 2 by norm_num]
      exact hh
    have a4 : Machine.ieee.R.mul (.fin (1 / 2)) (.fin (1 / 2)) = .fin (1 / 4) := by
      unfold Rounding.mul
      rw [XR.fin_mul]
      have := Rounded.ieee_dyadic 1 (-2) (by norm_num) (by norm_num) (by norm_num)
      norm_num at this ⊢
      exact this
    have l2 : PinFloat.Pos 8 (Machine.ieee.log (.fin 2)) := by
      obtain ⟨v, e, hv⟩ := PinFloat.ieee_log_bd 2 (by norm_num) (by norm_num)
      have := Rounded.ieee_log (.fin 2) (by rw [XR.one_def]; exact XR.fin_le.mpr (by norm_num))
      rw [e] at this
      exact ⟨v, e, XR.nonneg_fin.mp this, (abs_le.mp hv).2⟩
    have := C209_lk_finite Machine.ieee PinFloat.ieee_expOk 2000 8 (1 / 4)
      (fun x h1 h2 => PinFloat.ieee_log_bd x h1 (by linarith)) [(2000, 2000), (2000, 2000)] (by simp) (1 / 2) (1 / 2) 1000 1000 1000
      (by norm_num) (by norm_num) (by norm_num) (by norm_num) (by norm_num)
      (by rw [a3, a4]; exact ⟨XR.fin_le.mpr le_rfl, XR.fin_le.mpr le_rfl, XR.fin_le.mpr (by norm_num)⟩)
      (by rw [q, a1]; exact l2) (by rw [q, a1]; exact l2) (by rw [a2]; exact PinFloat.ieee_log_bd _ (by norm_num) (by norm_num))
      (by rw [a2]; exact PinFloat.ieee_log_bd _ (by norm_num) (by norm_num)) (by show _ ≤ 2 ^ 53; norm_num) (by simp) (by show 3 ≤ 2 ^ 53; norm_num)
    obtain ⟨v, e, hv⟩ := this
    exact ⟨v, e, by norm_num at hv; exact hv⟩

/-- a minimiser that returns its starting point with the value NaN -/
example : ∃ (mini : PinMinimizer) (o o' : PinObj) (r : PinParams), pinEstimate mini o "EHO2010" = .ok (o', r) ∧
    r.loglikelihood = .nan ∧ o.success = false ∧ o'.success = true := by
  let mini : PinMinimizer := fun _ _ s => ⟨true, s, .nan⟩
  have hm : pinStarts [.fin 3] [.fin 4] ≠ [] := by
    have hk := (C43_skipped (B := [3]) (S := [4]) (by simp) (by simp) (a := 0.1) (d := 0.1) (g := 0.9)
      (by simp [pinGrid, XR.ofSci_def]) (by simp [pinGrid, XR.ofSci_def]) (by simp [pinGrid, XR.ofSci_def])).mpr
      (by norm_num)
    exact List.ne_nil_of_mem hk
  have hs : successes mini [.fin 3] [.fin 4] "EHO2010" = (pinStarts [.fin 3] [.fin 4]).map fun s => ⟨true, s, .nan⟩ := by
    unfold successes
    apply List.filter_eq_self.mpr
    intro a ha
    obtain ⟨s, -, rfl⟩ := List.mem_map.mp ha
    rfl
  obtain ⟨l, a, hl⟩ := (List.eq_nil_or_concat (pinStarts [.fin 3] [.fin 4])).resolve_left hm
  rw [hl, List.concat_eq_append, List.map_append] at hs
  obtain ⟨o', e, h⟩ := C209_silent mini ⟨[.fin 3], [.fin 4], false, {}⟩ "EHO2010" (Or.inl rfl) _ _ hs (by
    intro q hq
    unfold successes at hq
    obtain ⟨s, -, rfl⟩ := List.mem_map.mp (List.mem_filter.mp hq).1
    rfl)
  exact ⟨mini, _, o', _, e, rfl, rfl, h⟩

end
end Frds.Props
