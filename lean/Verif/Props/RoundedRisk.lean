import Verif.Props.RoundedSpread

/-! GARCH variances, SRISK, LRMES and Z-score in rounded arithmetic. -/
namespace Frds.Props
noncomputable section
open Frds Frds.Model Classical Rounding
open Frds.Props.Rounded
set_option linter.unusedSimpArgs false

namespace Rounded

theorem mul_pos_nonneg {R : Rounding} {a : ℝ} {x : XR} (ha : 0 < a) (hx : 0 ≤ x) : 0 ≤ R.mul (.fin a) x := by
  apply round_nonneg
  rcases XR.nonneg_cases hx with rfl | ⟨b, hb, rfl⟩
  · show 0 ≤ XR.infSign a
    rw [XR.infSign_pos ha]; trivial
  · exact XR.fin_le.mpr (by positivity)

theorem square_nonneg {R : Rounding} (r : ℝ) : 0 ≤ R.mul (.fin r) (.fin r) := rd_nonneg (mul_self_nonneg r)

/-! ### C152: conditional variances -/

/-- the branch above the upper bound -/
theorem above_upper (M : Machine) (hlog : ∀ x, 1 ≤ x → 0 ≤ M.log x) {s u : XR} (hu : 0 ≤ u) (ru : M.R.Rep u) (h : u < s) :
    u ≤ (if ¬ s.isInf then M.R.add u (M.log (M.R.div s u)) else M.R.add u 1000) := by
  rcases XR.nonneg_cases hu with rfl | ⟨b, hb, rfl⟩
  · exact absurd h (XR.not_pinf_lt s)
  split_ifs with hi
  · exact le_add_right ru hu (XR.fin_le.mpr (by norm_num))
  · apply le_add_right ru hu
    apply hlog
    cases s with
    | nan => exact absurd h (XR.not_lt_nan _)
    | ninf => exact absurd h (XR.not_lt_ninf _)
    | pinf => exact absurd (Or.inl rfl) hi
    | fin s =>
      rw [XR.fin_lt] at h
      unfold Rounding.div
      rcases hb.eq_or_lt with rfl | hb
      · rw [XR.fin_div_zero, XR.infSign_pos h]; trivial
      · rw [XR.fin_div _ hb.ne']
        exact le_round rep_one (XR.fin_le.mpr ((one_le_div hb).mpr h.le))

theorem boundsCheckPy_ge (M : Machine) (hlog : ∀ x, 1 ≤ x → 0 ≤ M.log x) (v : XR) (b : XR × XR) (h0 : 0 ≤ b.1)
    (h1 : b.1 ≤ b.2) (ru : M.R.Rep b.2) : b.1 ≤ Model.Rounded.boundsCheckPy M v b := by
  unfold Model.Rounded.boundsCheckPy
  have hs : b.1 ≤ XR.pyMax b.1 v := by
    unfold XR.pyMax
    split_ifs with h
    · cases hb : b.1 <;> cases v <;> rw [hb] at h <;> first
        | exact trivial
        | exact False.elim h
        | exact XR.fin_le.mpr (le_of_lt (XR.fin_lt.mp h))
    · exact XR.le_refl' (XR.ne_nan_of_le h0).2
  simp only
  split_ifs with h2 h3
  · have := above_upper M hlog (XR.le_trans' h0 h1) ru h2
    rw [if_neg (not_not.mpr h3)] at this
    exact XR.le_trans' h1 this
  · have := above_upper M hlog (XR.le_trans' h0 h1) ru h2
    rw [if_pos h3] at this
    exact XR.le_trans' h1 this
  · exact hs

theorem boundsCheckCpp_ge (M : Machine) (hlog : ∀ x, 1 ≤ x → 0 ≤ M.log x) (v : XR) (hv : v ≠ .nan) (b : XR × XR)
    (h0 : 0 ≤ b.1) (h1 : b.1 ≤ b.2) (ru : M.R.Rep b.2) : b.1 ≤ Model.Rounded.boundsCheckCpp M v b := by
  unfold Model.Rounded.boundsCheckCpp
  have hs : b.1 ≤ (if v < b.1 then b.1 else v) := by
    split_ifs with h
    · exact XR.le_refl' (XR.ne_nan_of_le h0).2
    · have hb := (XR.ne_nan_of_le h0).2
      cases hb' : b.1 <;> rw [hb'] at h hb <;> cases v <;> first
        | exact trivial
        | exact absurd rfl hb
        | exact absurd rfl hv
        | exact absurd trivial h
        | exact XR.fin_le.mpr (not_lt.mp h)
  simp only
  split_ifs at hs ⊢ with h2 h3 h4 h3 h4
  all_goals try exact hs
  all_goals
    have := above_upper M hlog (XR.le_trans' h0 h1) ru (by assumption)
    simp only [*, not_true_eq_false, not_false_eq_true, if_true, if_false] at this
    exact XR.le_trans' h1 this

/-- every value of the loop has passed the check -/
theorem varLoop_inv (next : XR → XR → XR) (chk : XR → XR × XR → XR) (P : XR → Prop) (Q : XR → XR × XR → Prop)
    (hstep : ∀ r s b, P s → Q r b → b.1 ≤ chk (next r s) b) (hP : ∀ r s b, P s → Q r b → P (chk (next r s) b)) :
    ∀ (l : List (XR × (XR × XR))) (s : XR), P s → (∀ x ∈ l, Q x.1 x.2) →
      ∀ i (hi : i < l.length) (hi' : i < (varLoop next chk s l).length), l[i].2.1 ≤ (varLoop next chk s l)[i] := by
  intro l
  induction l with
  | nil => intro s _ _ i hi; simp at hi
  | cons x t ih =>
    intro s hs hl i hi hi'
    have hx := hl x (by simp)
    cases i with
    | zero => exact hstep x.1 s x.2 hs hx
    | succ j =>
      exact ih (chk (next x.1 s) x.2) (hP x.1 s x.2 hs hx) (fun y hy => hl y (by simp [hy])) j (by simpa using hi)
        (by simpa [varLoop] using hi')

theorem varLoop_length (next : XR → XR → XR) (chk : XR → XR × XR → XR) (l : List (XR × (XR × XR))) (s : XR) :
    (varLoop next chk s l).length = l.length := by
  induction l generalizing s with
  | nil => rfl
  | cons x t ih => simp [varLoop, ih]

/-- a computed path: all later values are at least their lower bound -/
theorem path_lower (next : XR → XR → XR) (chk : XR → XR × XR → XR) (s0 : XR) (resids : List XR) (bounds : List (XR × XR))
    (P : XR → Prop) (Q : XR → XR × XR → Prop) (hs0 : P s0)
    (hstep : ∀ r s b, P s → Q r b → b.1 ≤ chk (next r s) b) (hP : ∀ r s b, P s → Q r b → P (chk (next r s) b))
    (hQ : ∀ r ∈ resids, ∀ b ∈ bounds, Q r b) (out : List XR) (h : variancePath next chk s0 resids bounds = .ok out) :
    out.head? = some s0 ∧ out.length = resids.length ∧
      ∀ t (ht : t + 1 < out.length) (hb : t + 1 < bounds.length), (bounds[t + 1]).1 ≤ out[t + 1] := by
  unfold variancePath at h
  split_ifs at h with h1 h2
  injection h with h
  subst h
  have hlen : (varLoop next chk s0 (List.zip resids.dropLast bounds.tail)).length + 1 = resids.length := by
    rw [varLoop_length, List.length_zip, List.length_dropLast, List.length_tail]
    have : 0 < resids.length := List.length_pos_iff.mpr h1
    rw [not_and_or, not_le, not_lt] at h2
    omega
  refine ⟨rfl, by simpa using hlen, fun t ht hb => ?_⟩
  have hz : t < (List.zip resids.dropLast bounds.tail).length := by
    rw [← varLoop_length next chk _ s0]
    simpa using ht
  have := varLoop_inv next chk P Q hstep hP (List.zip resids.dropLast bounds.tail) s0 hs0 (by
    intro x hx
    obtain ⟨y, z⟩ := x
    have := List.of_mem_zip hx
    exact hQ y (List.dropLast_subset _ this.1) z (List.mem_of_mem_tail this.2)) t hz (by simpa using ht)
  simpa [List.getElem_zip, List.getElem_tail] using this

/-- adding zero to a computed variance changes nothing, so both sources of the GJR recursion compute the same float -/
theorem gjrNextCpp_eq (M : Machine) (p : GjrVar) : Model.Rounded.gjrNextCpp M p = Model.Rounded.gjrNext M p := by
  funext r s
  unfold Model.Rounded.gjrNextCpp Model.Rounded.gjrNext
  simp only
  split_ifs
  · rfl
  · generalize hv : M.R.add (M.R.add p.omega (M.R.mul p.alpha (M.R.mul r r))) (M.R.mul p.beta s) = v
    have hr : M.R.Rep v := hv ▸ rep_add _ _
    unfold Rounding.add
    cases v <;> try rfl
    rename_i a
    show _ = M.R.round (.fin a + .fin 0)
    rw [XR.fin_add, add_zero]
    exact hr.symm

theorem gjrVariance_eq (M : Machine) (cpp : Bool) (p : GjrVar) (resids : List XR) (backcast : XR)
    (bounds : List (XR × XR)) : Model.Rounded.gjrVariance M cpp p resids backcast bounds
      = variancePath (Model.Rounded.gjrNext M p) (Model.Rounded.boundsCheck M cpp)
          (M.R.add p.omega (M.R.mul (M.R.add (M.R.add p.alpha (M.R.div p.gamma 2)) p.beta) backcast)) resids bounds := by
  unfold Model.Rounded.gjrVariance
  rw [gjrNextCpp_eq, ite_self]

/-- ordered bounds -/
def RowOk (M : Machine) (b : XR × XR) : Prop := 0 ≤ b.1 ∧ b.1 ≤ b.2 ∧ M.R.Rep b.2

end Rounded

/-- C152: Python path. Whatever the parameters and residuals (NaN, overflow, negative parameters included), every
computed variance after the first is at least its lower bound, in both models. -/
theorem C152_python (M : Machine) (hlog : ∀ x, 1 ≤ x → 0 ≤ M.log x) (resids : List XR) (backcast : XR)
    (bounds : List (XR × XR)) (hb : ∀ b ∈ bounds, RowOk M b) (out : List XR)
    (h : (∃ p, Model.Rounded.garchVariance M false p resids backcast bounds = .ok out) ∨
      (∃ p, Model.Rounded.gjrVariance M false p resids backcast bounds = .ok out)) :
    out.length = resids.length ∧
      ∀ t (ht : t + 1 < out.length) (hb : t + 1 < bounds.length), (bounds[t + 1]).1 ≤ out[t + 1] := by
  have key : ∀ (next : XR → XR → XR) (s0 : XR),
      variancePath next (Model.Rounded.boundsCheck M false) s0 resids bounds = .ok out →
      out.length = resids.length ∧
      ∀ t (ht : t + 1 < out.length) (hb : t + 1 < bounds.length), (bounds[t + 1]).1 ≤ out[t + 1] := by
    intro next s0 h
    exact (path_lower next _ s0 resids bounds (fun _ => True) (fun _ b => RowOk M b) trivial
      (fun r s b _ hq => boundsCheckPy_ge M hlog _ b hq.1 hq.2.1 hq.2.2) (fun _ _ _ _ _ => trivial)
      (fun r _ b hb' => hb b hb') out h).2
  rcases h with ⟨p, h⟩ | ⟨p, h⟩
  · exact key _ _ h
  · exact key _ _ h

/-- C152: C++ path, which passes NaN through: with positive coefficients and finite residuals no NaN arises and every
computed variance after the first is at least its lower bound. -/
theorem C152_cpp (M : Machine) (hlog : ∀ x, 1 ≤ x → 0 ≤ M.log x) (omega alpha gamma beta : ℝ) (ho : 0 ≤ omega)
    (ha : 0 < alpha) (hg : 0 < gamma) (hbe : 0 < beta) (resids : List ℝ) (backcast : ℝ) (hbc : 0 < backcast)
    (bounds : List (XR × XR)) (hb : ∀ b ∈ bounds, RowOk M b) (out : List XR)
    (h : Model.Rounded.garchVariance M true ⟨.fin omega, .fin alpha, .fin beta⟩ (resids.map .fin) (.fin backcast) bounds
        = .ok out ∨
      Model.Rounded.gjrVariance M true ⟨.fin omega, .fin alpha, .fin gamma, .fin beta⟩ (resids.map .fin) (.fin backcast)
        bounds = .ok out) :
    out.length = resids.length ∧
      ∀ t (ht : t + 1 < out.length) (hb : t + 1 < bounds.length), (bounds[t + 1]).1 ≤ out[t + 1] := by
  have key : ∀ (next : XR → XR → XR) (s0 : XR), 0 ≤ s0 → (∀ (r : ℝ) (s : XR), 0 ≤ s → 0 ≤ next (.fin r) s) →
      variancePath next (Model.Rounded.boundsCheck M true) s0 (resids.map .fin) bounds = .ok out →
      out.length = resids.length ∧
      ∀ t (ht : t + 1 < out.length) (hb : t + 1 < bounds.length), (bounds[t + 1]).1 ≤ out[t + 1] := by
    intro next s0 hs0 hnext h
    have hge : ∀ (r s : XR) (b : XR × XR), 0 ≤ s → ((∃ x, r = .fin x) ∧ RowOk M b) →
        b.1 ≤ Model.Rounded.boundsCheck M true (next r s) b := by
      rintro r s b hs ⟨⟨x, rfl⟩, hq⟩
      exact boundsCheckCpp_ge M hlog _ (XR.ne_nan_of_le (hnext x s hs)).2 b hq.1 hq.2.1 hq.2.2
    have := (path_lower next _ s0 (resids.map .fin) bounds (fun s => 0 ≤ s) (fun r b => (∃ x, r = .fin x) ∧ RowOk M b)
      hs0 hge (fun r s b hs hq => XR.le_trans' hq.2.1 (hge r s b hs hq))
      (fun r hr b hb' => ⟨by obtain ⟨x, _, rfl⟩ := List.mem_map.mp hr; exact ⟨x, rfl⟩, hb b hb'⟩) out h).2
    simpa using this
  have hom : (0 : XR) ≤ .fin omega := XR.fin_le.mpr ho
  have hfin : ∀ {a : ℝ}, 0 < a → (0 : XR) ≤ .fin a := fun h => XR.fin_le.mpr h.le
  have hcoef : ∀ x : XR, 0 ≤ x → 0 ≤ M.R.mul x (.fin backcast) := by
    intro x hx
    have := mul_pos_nonneg (R := M.R) hbc hx
    unfold Rounding.mul at this ⊢
    rwa [XR.mul_comm'] at this
  have hsq : ∀ (p : ℝ), 0 < p → ∀ r : ℝ, 0 ≤ M.R.mul (.fin p) (M.R.mul (.fin r) (.fin r)) := fun p hp r =>
    mul_pos_nonneg hp (square_nonneg r)
  have hnext : ∀ (r : ℝ) (s : XR), 0 ≤ s → 0 ≤ Model.Rounded.garchNext M ⟨.fin omega, .fin alpha, .fin beta⟩ (.fin r) s :=
    fun r s hs => add_nonneg (add_nonneg hom (hsq alpha ha r)) (mul_pos_nonneg hbe hs)
  rw [gjrVariance_eq] at h
  rcases h with h | h
  · exact key _ _ (add_nonneg hom (hcoef _ (add_nonneg (hfin ha) (hfin hbe)))) hnext h
  · refine key _ _ (add_nonneg hom (hcoef _ (add_nonneg (add_nonneg (hfin ha) ?_) (hfin hbe)))) (fun r s hs => ?_) h
    · apply round_nonneg
      rw [show (2 : XR) = .fin 2 from rfl, XR.fin_div _ (by norm_num)]
      exact XR.fin_le.mpr (by positivity)
    · refine add_nonneg (hnext r s hs) ?_
      split_ifs
      · exact hsq gamma hg r
      · exact XR.fin_le.mpr le_rfl

/-- C152: the first variance is at least `omega`. -/
theorem C152_first (M : Machine) (cpp : Bool) (omega alpha gamma beta backcast : ℝ) (ho : 0 ≤ omega)
    (ro : M.R.Rep (.fin omega)) (ha : 0 ≤ alpha) (hg : 0 ≤ gamma) (hbe : 0 ≤ beta) (hbc : 0 < backcast)
    (resids : List XR) (bounds : List (XR × XR)) (out : List XR)
    (h : Model.Rounded.garchVariance M cpp ⟨.fin omega, .fin alpha, .fin beta⟩ resids (.fin backcast) bounds = .ok out ∨
      Model.Rounded.gjrVariance M cpp ⟨.fin omega, .fin alpha, .fin gamma, .fin beta⟩ resids (.fin backcast) bounds
        = .ok out) :
    ∃ s t, out = s :: t ∧ .fin omega ≤ s := by
  have hom : (0 : XR) ≤ .fin omega := XR.fin_le.mpr ho
  have hfin : ∀ {a : ℝ}, 0 ≤ a → (0 : XR) ≤ .fin a := fun h => XR.fin_le.mpr h
  have hcoef : ∀ x : XR, 0 ≤ x → 0 ≤ M.R.mul x (.fin backcast) := by
    intro x hx
    have := mul_pos_nonneg (R := M.R) hbc hx
    unfold Rounding.mul at this ⊢
    rwa [XR.mul_comm'] at this
  have key : ∀ (next : XR → XR → XR) (x : XR), 0 ≤ x →
      variancePath next (Model.Rounded.boundsCheck M cpp) (M.R.add (.fin omega) x) resids bounds = .ok out →
      ∃ s t, out = s :: t ∧ .fin omega ≤ s := by
    intro next x hx h
    unfold variancePath at h
    split_ifs at h
    injection h with h
    exact ⟨_, _, h.symm, le_add_right ro hom hx⟩
  rcases h with h | h
  · exact key _ _ (hcoef _ (add_nonneg (hfin ha) (hfin hbe))) h
  · refine key _ _ (hcoef _ (add_nonneg (add_nonneg (hfin ha) ?_) (hfin hbe))) h
    apply round_nonneg
    rw [show (2 : XR) = .fin 2 from rfl, XR.fin_div _ (by norm_num)]
    exact XR.fin_le.mpr (by positivity)

namespace Rounded

theorem ewmaLoop_nonneg (M : Machine) (lam : ℝ) (hl : 0 < lam) (c : ℝ) (hc : M.R.sub 1 (.fin lam) = .fin c) (hc0 : 0 < c)
    (resids : List ℝ) (v : XR) (hv : 0 ≤ v) :
    ∀ x ∈ Model.Rounded.ewmaLoop M (.fin lam) v (resids.map .fin), 0 ≤ x ∧ M.R.Rep x := by
  induction resids generalizing v with
  | nil => simp [Model.Rounded.ewmaLoop]
  | cons r t ih =>
    have h1 : 0 ≤ M.R.add (M.R.mul (.fin lam) v) (M.R.mul (M.R.sub 1 (.fin lam)) (M.R.mul (.fin r) (.fin r))) := by
      rw [hc]
      exact add_nonneg (mul_pos_nonneg hl hv) (mul_pos_nonneg hc0 (square_nonneg r))
    intro x hx
    simp only [List.map_cons, Model.Rounded.ewmaLoop, List.mem_cons] at hx
    rcases hx with rfl | hx
    · exact ⟨h1, rep_add _ _⟩
    · exact ih _ h1 x hx

theorem clip_rep (M : Machine) {v lo hi : XR} (hv : 0 ≤ v) (rv : M.R.Rep v) (hlo : 0 ≤ lo) (rlo : M.R.Rep lo)
    (hhi : 0 ≤ hi) (rhi : M.R.Rep hi) : 0 ≤ Np.clip v lo hi ∧ M.R.Rep (Np.clip v lo hi) := by
  have nv := (XR.ne_nan_of_le hv).2
  have nlo := (XR.ne_nan_of_le hlo).2
  have nhi := (XR.ne_nan_of_le hhi).2
  unfold Np.clip XR.npMax XR.npMin
  simp only [nv, nlo, nhi, or_self, or_false, if_false]
  split_ifs <;> first
    | exact ⟨hv, rv⟩
    | exact ⟨hlo, rlo⟩
    | exact ⟨hhi, rhi⟩
    | contradiction

theorem boundRow_ok (M : Machine) {v : XR} (hv : 0 ≤ v) (rv : M.R.Rep v) : RowOk M (Model.Rounded.boundRow M v) := by
  refine ⟨?_, ?_, rep_mul _ _⟩
  · apply round_nonneg
    rcases XR.nonneg_cases hv with rfl | ⟨a, ha, rfl⟩
    · show 0 ≤ (if (1000000 : ℝ) < 0 then XR.ninf else XR.pinf)
      rw [if_neg (by norm_num)]; trivial
    · rw [XR.fin_div _ (by norm_num)]
      exact XR.fin_le.mpr (by positivity)
  · rcases XR.nonneg_cases hv with rfl | ⟨a, ha, rfl⟩
    · show M.R.round (if (1000000 : ℝ) < 0 then XR.ninf else XR.pinf) ≤ M.R.round (XR.infSign 1000000)
      rw [if_neg (by norm_num), XR.infSign_pos (by norm_num)]
      trivial
    · have h1 : M.R.div (.fin a) (.fin 1000000) ≤ .fin a := by
        unfold Rounding.div
        rw [XR.fin_div _ (by norm_num)]
        exact round_le rv (XR.fin_le.mpr (by rw [div_le_iff₀ (by norm_num)]; nlinarith))
      have h2 : .fin a ≤ M.R.mul (.fin a) (.fin 1000000) := le_round rv (XR.fin_le.mpr (by nlinarith))
      exact XR.le_trans' h1 h2

end Rounded

/-- C152: the computed variance bounds are ordered and not negative: `0 ≤ lower ≤ upper` in every row. -/
theorem C152_rows (M : Machine) (lam c : ℝ) (hlam : M.R.rd (94 / 100) = .fin lam) (hl : 0 < lam)
    (hc : M.R.sub 1 (.fin lam) = .fin c) (hc0 : 0 < c) (resids : List ℝ) (initial lo hi : XR) (hi0 : 0 ≤ initial)
    (ri : M.R.Rep initial) (hlo : 0 ≤ lo) (rlo : M.R.Rep lo) (hhi : 0 ≤ hi) (rhi : M.R.Rep hi) (rows : List (XR × XR))
    (h : Model.Rounded.boundRows M (resids.map .fin) initial lo hi = .ok rows) :
    rows.length = resids.length ∧ ∀ b ∈ rows, RowOk M b := by
  unfold Model.Rounded.boundRows Model.Rounded.ewma at h
  split_ifs at h with h0
  · simp [bind, Except.bind] at h
  simp only [bind, Except.bind, pure, Except.pure] at h
  injection h with h
  subst h
  rw [hlam] at *
  have hd : (resids.map XR.fin).dropLast = resids.dropLast.map .fin := by rw [List.map_dropLast]
  rw [hd]
  have hall : ∀ x ∈ initial :: Model.Rounded.ewmaLoop M (.fin lam) initial (resids.dropLast.map .fin), 0 ≤ x ∧ M.R.Rep x := by
    intro x hx
    rcases List.mem_cons.mp hx with rfl | hx
    · exact ⟨hi0, ri⟩
    · exact ewmaLoop_nonneg M lam hl c hc hc0 _ _ hi0 x hx
  constructor
  · have hlen : ∀ (l : List XR) (v : XR), (Model.Rounded.ewmaLoop M (.fin lam) v l).length = l.length := by
      intro l
      induction l with
      | nil => intro v; rfl
      | cons r t ih => intro v; simp [Model.Rounded.ewmaLoop, ih]
    have : 0 < resids.length := by
      rcases resids with _ | ⟨a, t⟩
      · simp at h0
      · simp
    simp only [List.length_map, List.length_cons, hlen, List.length_dropLast]
    omega
  · intro b hb
    rw [List.map_map] at hb
    obtain ⟨v, hv, rfl⟩ := List.mem_map.mp hb
    have := clip_rep M (hall v hv).1 (hall v hv).2 hlo rlo hhi rhi
    exact boundRow_ok M this.1 this.2


namespace Rounded

theorem ieee_dyadic (m : ℕ) (q : ℤ) (hm : m ≤ 2 ^ 53) (hq : -1074 ≤ q) (hq' : q ≤ 0) :
    Machine.ieee.R.Rep (.fin (m * 2 ^ q)) := by
  show binary64.rd _ = _
  rw [Format.rd_of_nonneg (by positivity)]
  unfold Format.posRd
  rw [Format.val_exact (F := binary64) m q hm (by show (-1022 : ℤ) - (53 - 1) ≤ q; omega), if_neg]
  rw [not_le]
  calc (m : ℝ) * 2 ^ q ≤ 2 ^ 53 * 1 := by
        apply mul_le_mul
        · exact_mod_cast hm
        · exact zpow_le_one_of_nonpos₀ (by norm_num) hq'
        · positivity
        · positivity
    _ = 2 ^ (53 : ℤ) := by norm_cast
    _ < _ := zpow_lt_zpow_right₀ (by norm_num) (by decide)

theorem ieee_half : Machine.ieee.R.Rep (.fin (1 / 2)) := by
  have := ieee_dyadic 1 (-1) (by norm_num) (by norm_num) (by norm_num)
  simpa using this

theorem ieee_log (x : XR) (h : 1 ≤ x) : 0 ≤ Machine.ieee.log x := by
  apply round_nonneg
  cases x with
  | nan => exact absurd h (XR.not_le_nan _)
  | ninf => exact False.elim h
  | pinf => exact trivial
  | fin r =>
    have hr : 1 ≤ r := XR.fin_le.mp h
    rw [XR.fin_log (by linarith)]
    exact XR.fin_le.mpr (Real.log_nonneg hr)

/-- the decay factor in binary64 -/
theorem ieee_lam : ∃ lam c, Machine.ieee.R.rd (94 / 100) = .fin lam ∧ 0 < lam ∧
    Machine.ieee.R.sub 1 (.fin lam) = .fin c ∧ 0 < c := by
  have h1 : Machine.ieee.R.Rep (.fin (31 / 32)) := by
    have := ieee_dyadic 31 (-5) (by norm_num) (by norm_num) (by norm_num)
    norm_num at this ⊢
    exact this
  have h2 : Machine.ieee.R.Rep (.fin (1 / 32)) := by
    have := ieee_dyadic 1 (-5) (by norm_num) (by norm_num) (by norm_num)
    norm_num at this ⊢
    exact this
  have a1 := le_round (R := Machine.ieee.R) (y := .fin (94 / 100)) ieee_half (XR.fin_le.mpr (by norm_num))
  have a2 := round_le (R := Machine.ieee.R) (x := .fin (94 / 100)) h1 (XR.fin_le.mpr (by norm_num))
  rw [round_fin] at a1 a2
  cases h : Machine.ieee.R.rd (94 / 100) with
  | nan => exact absurd h (rd_ne_nan _)
  | ninf => rw [h] at a1; exact False.elim a1
  | pinf => rw [h] at a2; exact False.elim a2
  | fin lam =>
    rw [h, XR.fin_le] at a1 a2
    have b1 := le_round (R := Machine.ieee.R) (y := .fin (1 - lam)) h2 (XR.fin_le.mpr (by linarith))
    have b2 := round_le (R := Machine.ieee.R) (x := .fin (1 - lam)) rep_one (XR.fin_le.mpr (by linarith))
    rw [round_fin] at b1 b2
    cases h' : Machine.ieee.R.rd (1 - lam) with
    | nan => exact absurd h' (rd_ne_nan _)
    | ninf => rw [h'] at b1; exact False.elim b1
    | pinf => rw [h'] at b2; exact False.elim b2
    | fin c =>
      rw [h', XR.fin_le] at b1
      exact ⟨lam, c, rfl, by linarith, h', by linarith⟩

end Rounded

/-- in binary64 the bounds of any finite residuals are ordered, and the Python and C++ paths of a GJR model stay above
them -/
example : ∃ rows out outCpp, Model.Rounded.boundRows Machine.ieee [.fin 1, .fin (-3), .fin 2] (.fin 1) (.fin 0) (.fin 7) = .ok rows ∧
    Model.Rounded.gjrVariance Machine.ieee false ⟨.fin 1, .fin 1, .fin 1, .fin 1⟩ [.fin 1, .fin (-3), .fin 2] (.fin 1) rows = .ok out ∧
    Model.Rounded.gjrVariance Machine.ieee true ⟨.fin 1, .fin 1, .fin 1, .fin 1⟩ [.fin 1, .fin (-3), .fin 2] (.fin 1) rows = .ok outCpp ∧
    (∀ b ∈ rows, RowOk Machine.ieee b) ∧ out.length = 3 ∧ outCpp.length = 3 ∧
    (∀ t (ht : t + 1 < out.length) (hb : t + 1 < rows.length), (rows[t + 1]).1 ≤ out[t + 1]) ∧
    (∀ t (ht : t + 1 < outCpp.length) (hb : t + 1 < rows.length), (rows[t + 1]).1 ≤ outCpp[t + 1]) := by
  obtain ⟨lam, c, hlam, hl, hc, hc0⟩ := ieee_lam
  have h7 : Machine.ieee.R.Rep (.fin 7) := by simpa using rep_nat (R := Machine.ieee.R) (n := 7) (by decide)
  have hr := C152_rows Machine.ieee lam c hlam hl hc hc0 [1, -3, 2] (.fin 1) (.fin 0) (.fin 7) (XR.fin_le.mpr zero_le_one)
    rep_one (XR.fin_le.mpr le_rfl) rep_zero (XR.fin_le.mpr (by norm_num)) h7 _ rfl
  refine ⟨_, _, _, rfl, rfl, rfl, hr.2, ?_⟩
  have hp := C152_python Machine.ieee ieee_log [.fin 1, .fin (-3), .fin 2] (.fin 1) _ hr.2 _ (Or.inr ⟨⟨.fin 1, .fin 1, .fin 1, .fin 1⟩, rfl⟩)
  have hq := C152_cpp Machine.ieee ieee_log 1 1 1 1 zero_le_one one_pos one_pos one_pos [1, -3, 2] 1 one_pos _ hr.2 _ (Or.inr rfl)
  exact ⟨hp.1, hq.1, hp.2, hq.2⟩

/-- C152: without rounding the computations are the exact ones, in both implementations. -/
theorem C152_exact (p : GarchVar) (g : GjrVar) (resids : List XR) (bc lam initial : XR) (bounds : List (XR × XR)) (cpp : Bool) :
    Model.Rounded.garchVariance Machine.exact cpp p resids bc bounds = Model.garchVariance cpp p resids bc bounds ∧
    Model.Rounded.gjrVariance Machine.exact cpp g resids bc bounds = Model.gjrVariance cpp g resids bc bounds ∧
    Model.Rounded.ewma Machine.exact resids initial lam = Model.ewma true resids initial lam := by
  have hchk : Model.Rounded.boundsCheck Machine.exact cpp = Model.boundsCheck cpp := by
    cases cpp
    · funext v b
      simp only [Model.Rounded.boundsCheck, Model.boundsCheck, Model.Rounded.boundsCheckPy, Model.boundsCheckPy, ex_add,
        ex_log, ex_div, Bool.false_eq_true, if_false]
    · funext v b
      simp only [Model.Rounded.boundsCheck, Model.boundsCheck, Model.Rounded.boundsCheckCpp, Model.boundsCheckCpp, ex_add,
        ex_log, ex_div, if_true]
  refine ⟨?_, ?_, ?_⟩
  · have : Model.Rounded.garchNext Machine.exact p = Model.garchNext p := by
      funext r s
      simp only [Model.Rounded.garchNext, Model.garchNext, ex_add, ex_mul, XR.sq]
    simp only [Model.Rounded.garchVariance, Model.garchVariance, this, hchk, ex_add, ex_mul]
  · have : Model.Rounded.gjrNext Machine.exact g = Model.gjrNextPy g := by
      funext r s
      simp only [Model.Rounded.gjrNext, Model.gjrNextPy, ex_add, ex_mul, XR.sq]
    have that : Model.Rounded.gjrNextCpp Machine.exact g = Model.gjrNextCpp g := by
      funext r s
      simp only [Model.Rounded.gjrNextCpp, Model.gjrNextCpp, ex_add, ex_mul, XR.sq]
    simp only [Model.Rounded.gjrVariance, Model.gjrVariance, this, that, hchk, ex_add, ex_mul, ex_div]
  · have : ∀ (l : List XR) (v : XR), Model.Rounded.ewmaLoop Machine.exact lam v l = Model.ewmaLoopCpp lam v l := by
      intro l
      induction l with
      | nil => intro v; rfl
      | cons r t ih => intro v; simp only [Model.Rounded.ewmaLoop, Model.ewmaLoopCpp, ex_add, ex_mul, ex_sub, ih]
    simp only [Model.Rounded.ewma, Model.ewma, this, if_true]

/-! ### C153: SRISK -/

namespace Rounded

theorem mul_mono {R : Rounding} {a : ℝ} {x y : XR} (ha : 0 < a) (h : x ≤ y) : R.mul (.fin a) x ≤ R.mul (.fin a) y := by
  apply round_mono
  cases x <;> cases y <;> first
    | exact False.elim h
    | exact XR.fin_le.mpr (mul_le_mul_of_nonneg_left (XR.fin_le.mp h) ha.le)
    | (show XR.mul _ _ ≤ XR.mul _ _
       simp only [XR.mul, XR.infSign_pos ha, XR.infSign_neg (show -a < 0 by linarith)]
       trivial)

theorem add_mono {R : Rounding} {c : ℝ} {x y : XR} (h : x ≤ y) : R.add x (.fin c) ≤ R.add y (.fin c) := by
  apply round_mono
  cases x <;> cases y <;> first
    | exact False.elim h
    | exact XR.fin_le.mpr (add_le_add_left (XR.fin_le.mp h) c)
    | exact trivial

theorem add_mono_left {R : Rounding} {c x y : XR} (hc : c ≠ .ninf) (hc' : c ≠ .nan) (hx : ∃ r, x = .fin r)
    (hy : ∃ r, y = .fin r) (h : x ≤ y) : R.add c x ≤ R.add c y := by
  obtain ⟨a, rfl⟩ := hx
  obtain ⟨b, rfl⟩ := hy
  apply round_mono
  cases c with
  | nan => exact absurd rfl hc'
  | ninf => exact absurd rfl hc
  | pinf => exact trivial
  | fin c => exact XR.fin_le.mpr (by have := XR.fin_le.mp h; linarith)

theorem sub_mono {R : Rounding} {c : ℝ} {x y : XR} (h : x ≤ y) : R.sub x (.fin c) ≤ R.sub y (.fin c) := by
  apply round_mono
  cases x <;> cases y <;> first
    | exact False.elim h
    | (rw [XR.fin_sub, XR.fin_sub]; exact XR.fin_le.mpr (sub_le_sub_right (XR.fin_le.mp h) c))
    | exact trivial

theorem div_mono {R : Rounding} {c : ℝ} {x y : XR} (hc : 0 < c) (h : x ≤ y) : R.div x (.fin c) ≤ R.div y (.fin c) := by
  apply round_mono
  cases x <;> cases y <;> first
    | exact False.elim h
    | (rw [XR.fin_div _ hc.ne', XR.fin_div _ hc.ne']
       exact XR.fin_le.mpr (div_le_div_of_nonneg_right (XR.fin_le.mp h) hc.le))
    | (show XR.div _ _ ≤ XR.div _ _
       simp only [XR.div, if_neg (show ¬ c < 0 by linarith), if_neg hc.ne']
       trivial)

/-- the LRMES term is finite -/
theorem term_fin {M : Machine} {k l : ℝ} (hk0 : 0 ≤ k) (hk1 : k ≤ 1) (rl : M.R.Rep (.fin l)) :
    ∃ r, M.R.mul (M.R.sub 1 (.fin k)) (.fin l) = .fin r := by
  obtain ⟨x, hx, hx1, hx2⟩ := rd_abs (R := M.R) (r := 1 - k) (m := 1) (by linarith) (by linarith) rep_one
  have rla : M.R.Rep (.fin |l|) := by
    rcases abs_choice l with h | h <;> rw [h]
    · exact rl
    · exact neg_rep rl
  have hx0 : (0 : ℝ) ≤ x := by
    have := rd_nonneg (R := M.R) (show 0 ≤ 1 - k by linarith)
    rw [hx] at this
    exact XR.fin_le.mp this
  have h1 : |x * l| ≤ |l| := by
    rw [abs_mul, abs_of_nonneg hx0]
    nlinarith [abs_nonneg l]
  obtain ⟨y, hy, _, _⟩ := rd_abs (R := M.R) (r := x * l) (m := |l|) (by have := neg_abs_le (x * l); linarith)
    (by have := le_abs_self (x * l); linarith) rla
  refine ⟨y, ?_⟩
  show M.R.round (M.R.round (1 - .fin k) * .fin l) = _
  rw [XR.one_def, XR.fin_sub, round_fin, hx, XR.fin_mul, round_fin, hy]

end Rounded

/-- C153: the computed SRISK of one firm is monotone in debt and in LRMES (equity positive, `0 < k ≤ 1`). -/
theorem C153_monotone (M : Machine) (k W D D' l l' : ℝ) (hk0 : 0 < k) (hk1 : k ≤ 1) (hW : 0 < W)
    (hD : 0 ≤ D) (hDD : D ≤ D') (hl : l ≤ l') (rl : M.R.Rep (.fin l)) (rl' : M.R.Rep (.fin l')) :
    Model.Rounded.srisk M (.fin k) (.fin W) (.fin D) (.fin l) ≤ Model.Rounded.srisk M (.fin k) (.fin W) (.fin D') (.fin l') := by
  obtain ⟨t, ht⟩ := term_fin (M := M) hk0.le hk1 rl
  obtain ⟨t', ht'⟩ := term_fin (M := M) hk0.le hk1 rl'
  have htt : t ≤ t' := by
    obtain ⟨x, hx, _, _⟩ := rd_abs (R := M.R) (r := 1 - k) (m := 1) (by linarith) (by linarith) rep_one
    have hx0 : (0 : ℝ) ≤ x := by
      have := rd_nonneg (R := M.R) (show 0 ≤ 1 - k by linarith)
      rw [hx] at this
      exact XR.fin_le.mp this
    have e : M.R.sub 1 (.fin k) = .fin x := by
      show M.R.round (1 - .fin k) = _
      rw [XR.one_def, XR.fin_sub, round_fin, hx]
    rw [e] at ht ht'
    have := M.R.mono (x * l) (x * l') (mul_le_mul_of_nonneg_left hl hx0)
    rw [show M.R.rd (x * l) = .fin t from ht, show M.R.rd (x * l') = .fin t' from ht'] at this
    exact XR.fin_le.mp this
  unfold Model.Rounded.srisk
  rw [ht, ht']
  apply mul_mono hW
  apply sub_mono
  have h1 : M.R.mul (.fin k) (M.R.div (M.R.add (.fin D) (.fin W)) (.fin W)) ≤
      M.R.mul (.fin k) (M.R.div (M.R.add (.fin D') (.fin W)) (.fin W)) :=
    mul_mono hk0 (div_mono hW (add_mono (XR.fin_le.mpr hDD)))
  have h2 : 0 ≤ M.R.mul (.fin k) (M.R.div (M.R.add (.fin D') (.fin W)) (.fin W)) := by
    apply mul_pos_nonneg hk0
    have h3 : 0 ≤ M.R.add (.fin D') (.fin W) := add_nonneg (XR.fin_le.mpr (by linarith)) (XR.fin_le.mpr hW.le)
    have h4 := div_mono (R := M.R) hW h3
    have h5 : M.R.div 0 (.fin W) = 0 := by
      unfold Rounding.div
      rw [XR.zero_def, XR.fin_div _ hW.ne', zero_div]
      exact rep_zero
    rwa [h5] at h4
  refine XR.le_trans' (add_mono h1) (add_mono_left ?_ (XR.ne_nan_of_le h2).2 ⟨t, rfl⟩ ⟨t', rfl⟩ (XR.fin_le.mpr htt))
  intro h
  rw [h] at h2
  exact h2

example : Model.Rounded.srisk Machine.ieee (.fin (1 / 2)) (.fin 10) (.fin 90) (.fin 0) ≤
    Model.Rounded.srisk Machine.ieee (.fin (1 / 2)) (.fin 10) (.fin 95) (.fin 1) :=
  C153_monotone Machine.ieee (1 / 2) 10 90 95 0 1 (by norm_num) (by norm_num) (by norm_num) (by norm_num) (by norm_num)
    (by norm_num) rep_zero rep_one

/-- C153: the computed aggregate SRISK is not negative and at least every firm's SRISK. -/
theorem C153_aggregate (M : Machine) (s : List XR) (hs : ∀ x ∈ s, x ≠ .nan ∧ M.R.Rep x) :
    0 ≤ Model.Rounded.aggregate M s ∧ ∀ x ∈ s, x ≤ Model.Rounded.aggregate M s := by
  have hmax : ∀ x : XR, x ≠ .nan → 0 ≤ XR.npMax x 0 ∧ x ≤ XR.npMax x 0 := by
    intro x hx
    unfold XR.npMax
    rw [if_neg (by simp [hx, XR.zero_def])]
    split_ifs with h
    · refine ⟨XR.fin_le.mpr le_rfl, ?_⟩
      cases x <;> first | exact absurd rfl hx | exact trivial | exact False.elim h | exact XR.fin_le.mpr (le_of_lt (XR.fin_lt.mp h))
    · refine ⟨?_, XR.le_refl' hx⟩
      cases x <;> first | exact absurd rfl hx | exact trivial | exact absurd trivial h | exact XR.fin_le.mpr (not_lt.mp h)
  have hrep : ∀ x : XR, M.R.Rep x → M.R.Rep (XR.npMax x 0) := by
    intro x hx
    unfold XR.npMax
    by_cases h1 : x = .nan ∨ (0 : XR) = .nan
    · rw [if_pos h1]; rfl
    · rw [if_neg h1]
      by_cases h2 : x < 0
      · rw [if_pos h2]; exact rep_zero
      · rw [if_neg h2]; exact hx
  obtain ⟨h1, _, h3⟩ := (M.sum_ok 0 (s.map fun x => XR.npMax x 0)).nonneg (by
    intro x hx
    obtain ⟨y, hy, rfl⟩ := List.mem_map.mp hx
    exact ⟨(hmax y (hs y hy).1).1, hrep y (hs y hy).2⟩)
  refine ⟨h1, fun x hx => ?_⟩
  exact XR.le_trans' (hmax x (hs x hx).1).2 (h3 _ (List.mem_map.mpr ⟨x, hx, rfl⟩))

example : 0 ≤ Model.Rounded.aggregate Machine.ieee [.fin 1, .fin (-1)] ∧
    .fin 1 ≤ Model.Rounded.aggregate Machine.ieee [.fin 1, .fin (-1)] := by
  have := C153_aggregate Machine.ieee [.fin 1, .fin (-1)] (by
    intro x hx
    simp only [List.mem_cons, List.not_mem_nil, or_false] at hx
    rcases hx with rfl | rfl
    · exact ⟨by simp, rep_one⟩
    · exact ⟨by simp, neg_rep rep_one⟩)
  exact ⟨this.1, this.2 _ (by simp)⟩

/-- C153: without rounding the computations are the exact ones. -/
theorem C153_exact (k W D l : XR) (s : List XR) :
    Model.Rounded.srisk Machine.exact k W D l = sriskFormula k W D l ∧
    Model.Rounded.aggregate Machine.exact s = (s.map fun x => XR.npMax x 0).sum := by
  constructor
  · simp only [Model.Rounded.srisk, sriskFormula, ex_add, ex_mul, ex_sub, ex_div]
  · rfl

end
end Frds.Props
