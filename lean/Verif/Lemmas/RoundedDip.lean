import Verif.Model.RoundedTail
import Verif.Lemmas.RoundError
import Verif.Lemmas.Dip

/-! Lemmas for the distress insurance premium in rounded arithmetic. -/
set_option linter.unusedSimpArgs false
namespace Frds.RoundedDip
noncomputable section
open Frds Frds.Model Classical

/-- the overwritten array of simulated losses holds in row `i` the sums of row `i` -/
theorem rows_eq (M : Machine) (D : Rounded.DipData) (junk : ℕ → ℕ → XR) {i : ℕ} (hi : i < D.n) (j : ℕ) :
    Rounded.dipRows M D junk i j = Rounded.dipSum M D i j := by
  have key : ∀ m, Rounded.dipRows M { D with n := m } junk i j =
      if i < m then Rounded.dipSum M D i j else if m = 0 then junk i j else Rounded.dipSum M D (m - 1) j := by
    intro m
    induction m with
    | zero => rfl
    | succ m ih =>
      unfold Rounded.dipRows at ih ⊢
      simp only [List.range_succ, List.foldl_append, List.foldl_cons, List.foldl_nil] at ih ⊢
      by_cases h : m ≤ i
      · rw [if_pos h]
        by_cases h2 : i = m
        · subst h2
          rw [if_pos (by omega)]
          rfl
        · rw [if_neg (by omega), if_neg (by omega)]
          rfl
      · rw [if_neg h]
        refine ih.trans ?_
        rw [if_pos (by omega), if_pos (by omega)]
  have := key D.n
  rwa [if_pos hi] at this

/-- the values going into slot `k` -/
def into (slot : ℕ → ℕ → ℕ) (v : ℕ → XR) (l : List (ℕ × ℕ)) (k : ℕ) : List XR :=
  (l.filter fun ij => slot ij.1 ij.2 = k).map fun ij => v (ij.1 + 1)

theorem fill_sum (M : Machine) (loss : ℕ → ℕ → XR) (slot : ℕ → ℕ → ℕ) (v : ℕ → XR) (N : ℕ) :
    ∀ (l : List (ℕ × ℕ)) (acc : List XR) (L : ℕ → List XR), acc.length = N →
      (∀ k (h : k < acc.length), M.R.IsSum (L k) acc[k]) →
      (∀ ij ∈ l, Rounded.pyCeil (M.R.mul (loss ij.1 ij.2) 100) = .ok (slot ij.1 ij.2 : ℤ) ∧ slot ij.1 ij.2 < N) →
      ∃ out : List XR, l.foldlM (m := Except PyErr) (fun acc ij => do
          let idx ← Rounded.pyCeil (M.R.mul (loss ij.1 ij.2) 100)
          Rounded.addAt M acc idx (v (ij.1 + 1))) acc = .ok out ∧ out.length = N ∧
        ∀ k (h : k < out.length), M.R.IsSum (L k ++ into slot v l k) out[k] := by
  intro l
  induction l with
  | nil =>
    intro acc L hlen hs _
    exact ⟨acc, rfl, hlen, fun k h => by simpa [into] using hs k h⟩
  | cons ij l ih =>
    intro acc L hlen hs hl
    obtain ⟨hc, hlt⟩ := hl ij List.mem_cons_self
    have hadd : Rounded.addAt M acc (slot ij.1 ij.2 : ℤ) (v (ij.1 + 1))
        = .ok (acc.modify (slot ij.1 ij.2) (M.R.add · (v (ij.1 + 1)))) := by
      unfold Rounded.addAt
      have hk : (if (slot ij.1 ij.2 : ℤ) < 0 then (slot ij.1 ij.2 : ℤ) + (acc.length : ℤ) else slot ij.1 ij.2)
          = slot ij.1 ij.2 := if_neg (by omega)
      simp only [hk]
      rw [if_pos (by constructor <;> omega)]
      rfl
    obtain ⟨out, h1, h2, h3⟩ := ih (acc.modify (slot ij.1 ij.2) (M.R.add · (v (ij.1 + 1))))
      (fun k => L k ++ if slot ij.1 ij.2 = k then [v (ij.1 + 1)] else []) (by simpa using hlen)
      (by
        intro k h
        rw [List.getElem_modify]
        by_cases hk : slot ij.1 ij.2 = k
        · rw [if_pos hk, if_pos hk]
          exact (hs k (by simpa using h)).add (.single _)
        · rw [if_neg hk, if_neg hk, List.append_nil]
          exact hs k (by simpa using h))
      (fun p hp => hl p (List.mem_cons_of_mem _ hp))
    refine ⟨out, ?_, h2, fun k h => ?_⟩
    · rw [List.foldlM_cons]
      simp only [bind, Except.bind, hc, hadd]
      exact h1
    · have := h3 k h
      rw [List.append_assoc] at this
      convert this using 2
      unfold into
      rw [List.filter_cons]
      by_cases hk : slot ij.1 ij.2 = k <;> simp [hk]

/-- a ratio of integers of moderate size neither underflows nor overflows -/
theorem inRange_ratio {tiny huge : ℝ} (h1 : 2 * tiny * 2 ^ 200 ≤ 1) (h2 : 2 * 2 ^ 200 ≤ huge) {a b : ℕ} (hb : 0 < b)
    (ha' : a ≤ 2 ^ 200) (hb' : b ≤ 2 ^ 200) (ht : 0 ≤ tiny) : InRange tiny huge ((a : ℝ) / b) := by
  have hb0 : (0 : ℝ) < b := by exact_mod_cast hb
  have hb1 : (1 : ℝ) ≤ b := by exact_mod_cast hb
  have hb2 : (b : ℝ) ≤ 2 ^ 200 := by exact_mod_cast hb'
  have ha2 : (a : ℝ) ≤ 2 ^ 200 := by exact_mod_cast ha'
  rcases Nat.eq_zero_or_pos a with rfl | ha
  · left; simp
  · right
    have ha1 : (1 : ℝ) ≤ a := by exact_mod_cast ha
    constructor
    · rw [le_div_iff₀ hb0]
      have : 2 * tiny * b ≤ 2 * tiny * 2 ^ 200 := mul_le_mul_of_nonneg_left hb2 (by linarith)
      linarith
    · have : (a : ℝ) / b ≤ a := div_le_self (by linarith) hb1
      linarith

/-- exchanging the order of summation: slot by slot, or simulation by simulation -/
theorem sum_slots (slot : ℕ → ℕ → ℕ) (c : ℕ → ℕ) (f : ℕ → ℕ) (a N : ℕ) (l : List (ℕ × ℕ)) (h : ∀ ij ∈ l, slot ij.1 ij.2 < N) :
    ((List.range' a (N - a)).map fun k => f k * ((l.filter fun ij => slot ij.1 ij.2 = k).map fun ij => c (ij.1 + 1)).sum).sum
      = (l.map fun ij => if a ≤ slot ij.1 ij.2 then f (slot ij.1 ij.2) * c (ij.1 + 1) else 0).sum := by
  induction l with
  | nil => simp
  | cons ij l ih =>
    rw [List.map_cons, List.sum_cons, ← ih fun p hp => h p (List.mem_cons_of_mem _ hp)]
    have hlt := h ij List.mem_cons_self
    have e : ∀ k, f k * (((ij :: l).filter fun ij => slot ij.1 ij.2 = k).map fun ij => c (ij.1 + 1)).sum
        = (if slot ij.1 ij.2 = k then f k * c (ij.1 + 1) else 0)
          + f k * ((l.filter fun ij => slot ij.1 ij.2 = k).map fun ij => c (ij.1 + 1)).sum := by
      intro k
      rw [List.filter_cons]
      by_cases hk : slot ij.1 ij.2 = k <;> simp [hk, mul_add]
    simp only [e]
    rw [List.sum_map_add]
    congr 1
    have key : ∀ (m a : ℕ), slot ij.1 ij.2 < a + m →
        ((List.range' a m).map fun k => if slot ij.1 ij.2 = k then f k * c (ij.1 + 1) else 0).sum
          = if a ≤ slot ij.1 ij.2 then f (slot ij.1 ij.2) * c (ij.1 + 1) else 0 := by
      intro m
      induction m with
      | zero =>
        intro a ha
        rw [if_neg (by omega)]
        rfl
      | succ m ihm =>
        intro a ha
        rw [List.range'_succ, List.map_cons, List.sum_cons, ihm (a + 1) (by omega)]
        by_cases h1 : slot ij.1 ij.2 = a
        · rw [if_pos h1, if_neg (by omega), if_pos (by omega), h1]; simp
        · rw [if_neg h1]
          by_cases h2 : a ≤ slot ij.1 ij.2
          · rw [if_pos (by omega), if_pos h2]; simp
          · rw [if_neg (by omega), if_neg h2]
    by_cases haN : a ≤ N
    · exact key (N - a) a (by omega)
    · rw [show N - a = 0 by omega, if_neg (by omega)]
      rfl

end
end Frds.RoundedDip
