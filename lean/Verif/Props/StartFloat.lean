import Verif.Model.RoundedStart
import Verif.Props.PrepFloat

/-! C212: starting values and fits of the univariate models in binary64. -/
namespace Frds.Props
noncomputable section
open Frds Frds.Model Classical Rounding
set_option linter.unusedSimpArgs false

namespace StartFloat
open RoundedDcc PrepFloat

variable {M : Machine}

/-- rounding a number of magnitude at most one -/
theorem rd_err (hM : M.R = binary64.rounding) {x : ℝ} (hx : |x| ≤ 1) :
    ∃ y, M.R.rd x = .fin y ∧ M.R.Rep (.fin y) ∧ |y - x| ≤ 1 / 2 ^ 53 := by
  obtain ⟨y, ey, -, ry⟩ := bd_rd hM (n := 1) (by norm_num) (by push_cast; exact hx)
  obtain ⟨tiny, huge, A, ht, -⟩ := env M hM
  have ht1 : tiny ≤ 1 := by simpa using tinyLe (k := 0) ht (by norm_num) A.tiny_nonneg
  have e := A.err _ _ ey
  have : max |x| tiny ≤ 1 := max_le hx ht1
  refine ⟨y, ey, ry, e.trans ?_⟩
  rw [show (2 : ℝ) ^ (-53 : ℤ) = 1 / 2 ^ 53 by norm_num]
  exact mul_le_of_le_one_right (by positivity) this

/-- a rounded number strictly between zero and one -/
theorem coef (hM : M.R = binary64.rounding) {x : ℝ} (h0 : 1 / 200 ≤ x) (h1 : x ≤ 99 / 100) :
    ∃ y, M.R.rd x = .fin y ∧ Nn M 1 (.fin y) ∧ |y - x| ≤ 1 / 2 ^ 53 := by
  obtain ⟨y, ey, ry, be⟩ := rd_err hM (x := x) (by rw [abs_of_nonneg (by linarith)]; linarith)
  have b := abs_le.mp be
  exact ⟨y, ey, ⟨y, rfl, by norm_num at b; linarith [b.1], by norm_num at b; linarith [b.2], ry⟩, be⟩

/-- the omega of a candidate -/
theorem omega_ok (hM : M.R = binary64.rounding) {v p0 : ℝ} (h1 : 1 / 2 ^ 32 ≤ v) (h2 : v ≤ 2 ^ 40) (p1 : 1 / 2 ≤ p0) (p2 : p0 ≤ 98 / 100) :
    Omega M (M.R.mul (.fin v) (M.R.sub 1 (M.R.rd p0))) := by
  obtain ⟨p, ep, -, bp⟩ := coef hM (x := p0) (by linarith) (by linarith)
  have b := abs_le.mp bp
  obtain ⟨q, eq, -, bq⟩ := coef hM (x := 1 - p) (by norm_num at b; linarith [b.2]) (by norm_num at b; linarith [b.1])
  have c := abs_le.mp bq
  have q1 : 1 / 128 ≤ q := by norm_num at b c; linarith [b.2, c.1]
  have q2 : q ≤ 1 := by norm_num at b c; linarith [b.1, c.2]
  have es : M.R.sub 1 (M.R.rd p0) = .fin q := by
    rw [ep]
    unfold Rounding.sub
    rw [XR.one_def, XR.fin_sub, Rounding.round_fin, eq]
  have v0 : 0 < v := lt_of_lt_of_le (by positivity) h1
  have hvq : 1 / 2 ^ 39 ≤ v * q := by
    have := mul_le_mul h1 q1 (by norm_num) v0.le
    norm_num at this ⊢
    linarith
  obtain ⟨o, eo, o0, o1, ro⟩ := nn_le hM (n := 2 ^ 40) (x := v * q) (by norm_num) (by positivity) (by
    have := mul_le_mul h2 q2 (by linarith) (by positivity)
    rw [mul_one] at this
    norm_num at this ⊢
    exact this)
  obtain ⟨tiny, huge, A, ht, -⟩ := env M hM
  have ht' := tinyLe (k := 60) ht (by norm_num) A.tiny_nonneg
  have e := A.err _ _ eo
  rw [abs_of_pos (by positivity : 0 < v * q), max_eq_left (le_trans (by norm_num at ht' ⊢; linarith) hvq)] at e
  have e' := (abs_le.mp e).1
  have h3 : (2 : ℝ) ^ (-53 : ℤ) * (v * q) ≤ 1 / 2 * (v * q) := mul_le_mul_of_nonneg_right (by norm_num) (by positivity)
  rw [es]
  unfold Rounding.mul
  rw [XR.fin_mul, Rounding.round_fin]
  refine ⟨o, eo, ?_, by norm_num at o1 ⊢; exact o1, ro⟩
  norm_num at e' h3 hvq ⊢
  linarith

/-- the coefficients of a GARCH candidate -/
theorem garch_coef (hM : M.R = binary64.rounding) {a0 p0 : ℝ} (a1 : 1 / 100 ≤ a0) (a2 : a0 ≤ 1 / 5) (p1 : 1 / 2 ≤ p0) (p2 : p0 ≤ 98 / 100) :
    Coef M (M.R.rd a0) ∧ Coef M (M.R.sub (M.R.rd p0) (M.R.rd a0)) := by
  obtain ⟨a, ea, na, ba⟩ := coef hM (x := a0) (by linarith) (by linarith)
  obtain ⟨p, ep, -, bp⟩ := coef hM (x := p0) (by linarith) (by linarith)
  have b := abs_le.mp ba
  have c := abs_le.mp bp
  obtain ⟨q, eq, nq, -⟩ := coef hM (x := p - a) (by norm_num at b c; linarith [b.2, c.1]) (by norm_num at b c; linarith [b.1, c.2])
  rw [ea, ep]
  refine ⟨na, ?_⟩
  unfold Rounding.sub
  rw [XR.fin_sub, Rounding.round_fin, eq]
  exact nq

/-- the coefficients of a GJR candidate -/
theorem gjr_coef (hM : M.R = binary64.rounding) {a0 g0 p0 : ℝ} (a1 : 1 / 100 ≤ a0) (a2 : a0 ≤ 1 / 5) (g1 : 1 / 100 ≤ g0) (g2 : g0 ≤ 1 / 5)
    (p1 : 1 / 2 ≤ p0) (p2 : p0 ≤ 98 / 100) :
    Coef M (M.R.rd a0) ∧ Coef M (M.R.rd g0) ∧ Coef M (M.R.sub (M.R.sub (M.R.rd p0) (M.R.rd a0)) (M.R.div (M.R.rd g0) 2)) := by
  obtain ⟨a, ea, na, ba⟩ := coef hM (x := a0) (by linarith) (by linarith)
  obtain ⟨g, eg, ng, bg⟩ := coef hM (x := g0) (by linarith) (by linarith)
  obtain ⟨p, ep, -, bp⟩ := coef hM (x := p0) (by linarith) (by linarith)
  have b := abs_le.mp ba
  have c := abs_le.mp bp
  have d := abs_le.mp bg
  obtain ⟨q, eq, -, bq⟩ := coef hM (x := p - a) (by norm_num at b c; linarith [b.2, c.1]) (by norm_num at b c; linarith [b.1, c.2])
  have e := abs_le.mp bq
  obtain ⟨h, eh, -, bh⟩ := rd_err hM (x := g / 2) (by rw [abs_le]; constructor <;> norm_num at d <;> linarith [d.1, d.2])
  have f := abs_le.mp bh
  obtain ⟨r, er, nr, -⟩ := coef hM (x := q - h) (by norm_num at b c d e f; linarith [b.2, c.1, d.2, e.1, f.2])
    (by norm_num at b c d e f; linarith [b.1, c.2, d.1, e.2, f.1])
  rw [ea, ep, eg]
  refine ⟨na, ng, ?_⟩
  unfold Rounding.sub Rounding.div
  rw [XR.fin_sub, Rounding.round_fin, eq, show (2 : XR) = .fin 2 from rfl, XR.fin_div _ (by norm_num), Rounding.round_fin, eh, XR.fin_sub,
    Rounding.round_fin, er]
  exact nr

theorem mem_alpha {a : XR} (h : a ∈ Model.Rounded.alphaGrid M) : ∃ a0 : ℝ, a = M.R.rd a0 ∧ 1 / 100 ≤ a0 ∧ a0 ≤ 1 / 5 := by
  simp only [Model.Rounded.alphaGrid, List.map_cons, List.map_nil, List.mem_cons, List.not_mem_nil, or_false] at h
  rcases h with rfl | rfl | rfl | rfl
  all_goals exact ⟨_, rfl, by norm_num, by norm_num⟩

theorem mem_pers {p : XR} (h : p ∈ Model.Rounded.persistenceGrid M) : ∃ p0 : ℝ, p = M.R.rd p0 ∧ 1 / 2 ≤ p0 ∧ p0 ≤ 98 / 100 := by
  simp only [Model.Rounded.persistenceGrid, List.map_cons, List.map_nil, List.mem_cons, List.not_mem_nil, or_false] at h
  rcases h with rfl | rfl | rfl | rfl
  all_goals exact ⟨_, rfl, by norm_num, by norm_num⟩

/-- every candidate has a finite likelihood: the last one is returned -/
theorem grid {P : Type} (cands : List P) (path : P → Except PyErr (List XR)) (resids : List XR)
    (h : ∀ p ∈ cands, ∃ (s : List XR) (f : ℝ), path p = .ok s ∧ Model.Rounded.loglik M 0 resids s = .fin f) :
    Model.Rounded.gridSearch M cands path resids = .ok cands.getLast? := by
  unfold Model.Rounded.gridSearch
  have key : ∀ (cands : List P) (best : Option P), (∀ p ∈ cands, ∃ (s : List XR) (f : ℝ), path p = .ok s ∧ Model.Rounded.loglik M 0 resids s = .fin f) →
      cands.foldlM (fun best p => do
        let s2 ← path p
        return if .ninf < -(Model.Rounded.loglik M 0 resids s2) then some p else best) best = (.ok (cands.getLast?.or best) : Except PyErr (Option P)) := by
    intro cands
    induction cands with
    | nil => intro best _; rfl
    | cons p cands ih =>
      intro best h
      obtain ⟨s, f, e1, e2⟩ := h p (by simp)
      rw [List.foldlM_cons]
      simp only [bind, Except.bind, pure, Except.pure, e1, e2, XR.fin_neg]
      rw [if_pos (show XR.ninf < .fin (-f) from trivial)]
      have := ih (some p) fun q hq => h q (by simp [hq])
      simp only [bind, Except.bind, pure, Except.pure] at this
      rw [this]
      cases hl : cands.getLast? with
      | none => rw [List.getLast?_eq_none_iff.mp hl]; rfl
      | some q => rw [List.getLast?_cons, hl]; rfl
  rw [key cands none h, Option.or_none]

end StartFloat
open StartFloat PrepFloat

/-- C212. The starting values of `GARCHModel.fit` in binary64: every candidate of the grid has a finite likelihood, so the grid search returns
the last one - `alpha` 0.2, persistence 0.98, whatever the data - and the optimiser starts at a point where its objective is finite. -/
theorem C212_garch_start (M : Machine) (hM : M.R = binary64.rounding) (hlog : LogRange M) {lp : ℝ} (hlp : Model.Rounded.log2pi M = .fin lp)
    (blp : |lp| ≤ 3) (pw : ℕ → XR) (hpw : Decay M pw) (i : ℕ) (cpp zeroMean : Bool) (x : List ℝ) (hx : Data M x) :
    Model.Rounded.garchStart M pw i cpp zeroMean (x.map .fin) = .ok (some
      ⟨M.R.mul (Model.Rounded.npVar M i (x.map .fin)) (M.R.sub 1 (M.R.rd (98 / 100))), M.R.rd (1 / 5),
        M.R.sub (M.R.rd (98 / 100)) (M.R.rd (1 / 5))⟩) ∧
    Omega M (M.R.mul (Model.Rounded.npVar M i (x.map .fin)) (M.R.sub 1 (M.R.rd (98 / 100)))) ∧ Coef M (M.R.rd (1 / 5)) ∧
    Coef M (M.R.sub (M.R.rd (98 / 100)) (M.R.rd (1 / 5))) ∧ Mean M (Model.Rounded.mean M i (x.map .fin)) ∧
    ∃ f : ℝ, Model.Rounded.garchFitObjective M pw i cpp zeroMean (x.map .fin) (if zeroMean then 0 else Model.Rounded.mean M i (x.map .fin))
      ⟨M.R.mul (Model.Rounded.npVar M i (x.map .fin)) (M.R.sub 1 (M.R.rd (98 / 100))), M.R.rd (1 / 5),
        M.R.sub (M.R.rd (98 / 100)) (M.R.rd (1 / 5))⟩ = .ok (.fin f) := by
  obtain ⟨y, ey, ly, hy⟩ := prep_good hM hx zeroMean (i + 2) i
  obtain ⟨v0, e0, v1, v2⟩ := hy.comp
  obtain ⟨rows, er, lr, hr⟩ := rows_ok hM hpw i y hy.ne hy.bd e0 v1 v2
  have hbc := backcast_nn hM hpw i y hy.ne hy.bd
  obtain ⟨y', ey', -, hy'⟩ := prep_good hM hx true i i
  obtain rfl : y' = x := by
    have : (y'.map XR.fin) = x.map XR.fin := ey'.symm
    exact List.map_injective_iff.mpr (fun a b h => XR.fin_inj.mp h) this
  obtain ⟨w, ew, w1, w2⟩ := hy'.comp
  obtain ⟨m, em, bm, rm⟩ := mean_bd hM i (2 ^ 14) y' hx.ne (by norm_num) hx.len (fun v hv => by
    have := (hx.bd v hv).1
    norm_num at this ⊢
    exact this)
  have hmean : Mean M (Model.Rounded.mean M i (y'.map .fin)) := ⟨m, em, by norm_num at bm ⊢; exact bm, rm⟩
  have ho : ∀ p0 : ℝ, 1 / 2 ≤ p0 → p0 ≤ 98 / 100 → Omega M (M.R.mul (Model.Rounded.npVar M i (y'.map .fin)) (M.R.sub 1 (M.R.rd p0))) := by
    intro p0 h1 h2
    rw [ew]
    exact omega_ok hM w1 w2 h1 h2
  have hc := garch_coef hM (a0 := 1 / 5) (p0 := 98 / 100) (by norm_num) (by norm_num) (by norm_num) (by norm_num)
  have ho' := ho (98 / 100) (by norm_num) (by norm_num)
  refine ⟨?_, ho', hc.1, hc.2, hmean, ?_⟩
  · unfold Model.Rounded.garchStart
    simp only [bind, Except.bind, ey, er]
    rw [grid]
    · rfl
    · intro p hp
      unfold Model.Rounded.garchCands at hp
      obtain ⟨a, ha, hp⟩ := List.mem_flatMap.mp hp
      obtain ⟨q, hq, rfl⟩ := List.mem_map.mp hp
      obtain ⟨a0, rfl, a1, a2⟩ := mem_alpha ha
      obtain ⟨p0, rfl, p1, p2⟩ := mem_pers hq
      have hc := garch_coef hM a1 a2 p1 p2
      obtain ⟨s, es, ls, bs⟩ := garch_path hM hlog cpp (p := ⟨_, _, _⟩) (ho p0 p1 p2) hc.1 hc.2 hbc y hy.ne (fun v hv => (hy.bd v hv).trans (by norm_num)) rows
        (by omega) hr
      obtain ⟨f, hf, -⟩ := PrepFloat.loglik_fin hM hlog hlp blp 0 y s ls (by rw [ly]; exact hx.len.trans (by norm_num))
        (fun v hv => (hy.bd v hv).trans (by norm_num)) bs
      exact ⟨_, f, es, hf⟩
  · have h0 : Mean M (if zeroMean then 0 else Model.Rounded.mean M i (y'.map .fin)) := by
      cases zeroMean
      · exact hmean
      · exact ⟨0, rfl, by norm_num, Rounding.rd_zero⟩
    obtain ⟨f, hf, -⟩ := C211_garch M hM hlog hlp blp pw hpw i cpp zeroMean y' hx _ h0 ⟨_, _, _⟩ ho' hc.1 hc.2
    exact ⟨f, hf⟩

/-- C212. The same for `GJRGARCHModel.fit`: the last of the 64 candidates, `alpha = gamma = 0.2`, persistence 0.98. -/
theorem C212_gjr_start (M : Machine) (hM : M.R = binary64.rounding) (hlog : LogRange M) {lp : ℝ} (hlp : Model.Rounded.log2pi M = .fin lp)
    (blp : |lp| ≤ 3) (pw : ℕ → XR) (hpw : Decay M pw) (i : ℕ) (cpp zeroMean : Bool) (x : List ℝ) (hx : Data M x) :
    ∃ p : GjrVar, Model.Rounded.gjrStart M pw i cpp zeroMean (x.map .fin) = .ok (some p) ∧
      p = ⟨M.R.mul (Model.Rounded.npVar M i (x.map .fin)) (M.R.sub 1 (M.R.rd (98 / 100))), M.R.rd (1 / 5), M.R.rd (1 / 5),
        M.R.sub (M.R.sub (M.R.rd (98 / 100)) (M.R.rd (1 / 5))) (M.R.div (M.R.rd (1 / 5)) 2)⟩ ∧
      Omega M p.omega ∧ Coef M p.alpha ∧ Coef M p.gamma ∧ Coef M p.beta ∧
      ∃ f : ℝ, Model.Rounded.gjrFitObjective M pw i cpp zeroMean (x.map .fin) (if zeroMean then 0 else Model.Rounded.mean M i (x.map .fin)) p =
        .ok (.fin f) := by
  obtain ⟨y, ey, ly, hy⟩ := prep_good hM hx zeroMean (i + 2) i
  obtain ⟨v0, e0, v1, v2⟩ := hy.comp
  obtain ⟨rows, er, lr, hr⟩ := rows_ok hM hpw i y hy.ne hy.bd e0 v1 v2
  have hbc := backcast_nn hM hpw i y hy.ne hy.bd
  obtain ⟨-, -, -, -, hmean, -⟩ := C212_garch_start M hM hlog hlp blp pw hpw i cpp zeroMean x hx
  have ho : ∀ p0 : ℝ, 1 / 2 ≤ p0 → p0 ≤ 98 / 100 → Omega M (M.R.mul (Model.Rounded.npVar M i (x.map .fin)) (M.R.sub 1 (M.R.rd p0))) := by
    intro p0 h1 h2
    obtain ⟨y', ey', -, hy'⟩ := prep_good hM hx true i i
    obtain rfl : y' = x := by
      have : (y'.map XR.fin) = x.map XR.fin := ey'.symm
      exact List.map_injective_iff.mpr (fun a b h => XR.fin_inj.mp h) this
    obtain ⟨w, ew, w1, w2⟩ := hy'.comp
    rw [ew]
    exact omega_ok hM w1 w2 h1 h2
  have hc := gjr_coef hM (a0 := 1 / 5) (g0 := 1 / 5) (p0 := 98 / 100) (by norm_num) (by norm_num) (by norm_num) (by norm_num) (by norm_num) (by norm_num)
  have ho' := ho (98 / 100) (by norm_num) (by norm_num)
  refine ⟨_, ?_, rfl, ho', hc.1, hc.2.1, hc.2.2, ?_⟩
  · unfold Model.Rounded.gjrStart
    simp only [bind, Except.bind, ey, er]
    rw [grid]
    · rfl
    · intro p hp
      unfold Model.Rounded.gjrCands at hp
      obtain ⟨a, ha, hp⟩ := List.mem_flatMap.mp hp
      obtain ⟨g, hg, hp⟩ := List.mem_flatMap.mp hp
      obtain ⟨q, hq, rfl⟩ := List.mem_map.mp hp
      obtain ⟨a0, rfl, a1, a2⟩ := mem_alpha ha
      obtain ⟨g0, rfl, g1, g2⟩ := mem_alpha hg
      obtain ⟨p0, rfl, p1, p2⟩ := mem_pers hq
      have hc := gjr_coef hM a1 a2 g1 g2 p1 p2
      obtain ⟨s, es, ls, bs⟩ := gjr_path hM hlog cpp (p := ⟨_, _, _, _⟩) (ho p0 p1 p2) hc.1 hc.2.1 hc.2.2 hbc y hy.ne
        (fun v hv => (hy.bd v hv).trans (by norm_num)) rows (by omega) hr
      obtain ⟨f, hf, -⟩ := PrepFloat.loglik_fin hM hlog hlp blp 0 y s ls (by rw [ly]; exact hx.len.trans (by norm_num))
        (fun v hv => (hy.bd v hv).trans (by norm_num)) bs
      exact ⟨_, f, es, hf⟩
  · have h0 : Mean M (if zeroMean then 0 else Model.Rounded.mean M i (x.map .fin)) := by
      cases zeroMean
      · exact hmean
      · exact ⟨0, rfl, by norm_num, Rounding.rd_zero⟩
    obtain ⟨f, hf, -⟩ := C211_gjr M hM hlog hlp blp pw hpw i cpp zeroMean x hx _ h0 ⟨_, _, _, _⟩ ho' hc.1 hc.2.1 hc.2.2
    exact ⟨f, hf⟩

/-- C212. `GARCHModel.fit` in binary64 raises no exception whatever the optimiser does, and if the optimiser reports success at a point in the
range of C211 with the value of the objective there, the reported log-likelihood is a finite number; if its value is moreover not above that at
the starting point, the reported log-likelihood is at least that of the starting values. -/
theorem C212_garch_fit (M : Machine) (hM : M.R = binary64.rounding) (hlog : LogRange M) {lp : ℝ} (hlp : Model.Rounded.log2pi M = .fin lp)
    (blp : |lp| ≤ 3) (pw : ℕ → XR) (hpw : Decay M pw) (i : ℕ) (cpp zeroMean : Bool) (x : List ℝ) (hx : Data M x) :
    ∃ (p0 : GarchVar) (f0 : ℝ), Model.Rounded.garchStart M pw i cpp zeroMean (x.map .fin) = .ok (some p0) ∧
      Model.Rounded.garchFitObjective M pw i cpp zeroMean (x.map .fin) (if zeroMean then 0 else Model.Rounded.mean M i (x.map .fin)) p0 = .ok (.fin f0) ∧
      ∀ (opt : Optimizer (XR × GarchVar)) (run : OptRun (XR × GarchVar)),
        run = opt (garchFeas zeroMean) (Model.Rounded.objValue fun p : XR × GarchVar => Model.Rounded.garchFitObjective M pw i cpp zeroMean (x.map .fin) p.1 p.2)
          (if zeroMean then 0 else Model.Rounded.mean M i (x.map .fin), p0) →
        (run.success = false → Model.Rounded.garchFit M pw i cpp zeroMean (x.map .fin) opt = .ok none) ∧
        (run.success = true →
          run.f = Model.Rounded.objValue (fun p : XR × GarchVar => Model.Rounded.garchFitObjective M pw i cpp zeroMean (x.map .fin) p.1 p.2) run.x →
          (zeroMean = false → Mean M run.x.1) → Omega M run.x.2.omega → Coef M run.x.2.alpha → Coef M run.x.2.beta →
          ∃ f : ℝ, Model.Rounded.garchFit M pw i cpp zeroMean (x.map .fin) opt = .ok (some (if zeroMean then 0 else run.x.1, run.x.2, .fin f)) ∧
            Model.Rounded.garchFitObjective M pw i cpp zeroMean (x.map .fin) (if zeroMean then 0 else run.x.1) run.x.2 = .ok (.fin (-f)) ∧
            (run.f ≤ .fin f0 → -f0 ≤ f)) := by
  obtain ⟨h1, -, -, -, -, f0, h2⟩ := C212_garch_start M hM hlog hlp blp pw hpw i cpp zeroMean x hx
  refine ⟨_, f0, h1, h2, ?_⟩
  intro opt run hrun
  have hfit : Model.Rounded.garchFit M pw i cpp zeroMean (x.map .fin) opt =
      .ok (if run.success then some (if zeroMean then 0 else run.x.1, run.x.2, -run.f) else none) := by
    rw [hrun]
    unfold Model.Rounded.garchFit Model.Rounded.fitWith
    rw [h1]
    rfl
  refine ⟨fun hs => by rw [hfit, hs]; rfl, ?_⟩
  intro hs k1 k2 k3 k4 k5
  have hm : Mean M (if zeroMean then 0 else run.x.1) := by
    cases zeroMean
    · exact k2 rfl
    · exact ⟨0, rfl, by norm_num, Rounding.rd_zero⟩
  obtain ⟨f, hf, -⟩ := C211_garch M hM hlog hlp blp pw hpw i cpp zeroMean x hx _ hm run.x.2 k3 k4 k5
  have hf' : run.f = .fin f := by
    rw [k1]
    unfold Model.Rounded.objValue
    have : Model.Rounded.garchFitObjective M pw i cpp zeroMean (x.map .fin) run.x.1 run.x.2 = .ok (.fin f) := by
      rw [← hf]
      cases zeroMean <;> rfl
    simp only [this]
  refine ⟨-f, ?_, by rw [neg_neg]; exact hf, ?_⟩
  · rw [hfit, hs, hf', XR.fin_neg]; rfl
  · intro hle
    rw [hf', XR.fin_le] at hle
    linarith

/-- C212. The same for `GJRGARCHModel.fit`. -/
theorem C212_gjr_fit (M : Machine) (hM : M.R = binary64.rounding) (hlog : LogRange M) {lp : ℝ} (hlp : Model.Rounded.log2pi M = .fin lp)
    (blp : |lp| ≤ 3) (pw : ℕ → XR) (hpw : Decay M pw) (i : ℕ) (cpp zeroMean : Bool) (x : List ℝ) (hx : Data M x) :
    ∃ (p0 : GjrVar) (f0 : ℝ), Model.Rounded.gjrStart M pw i cpp zeroMean (x.map .fin) = .ok (some p0) ∧
      Model.Rounded.gjrFitObjective M pw i cpp zeroMean (x.map .fin) (if zeroMean then 0 else Model.Rounded.mean M i (x.map .fin)) p0 = .ok (.fin f0) ∧
      ∀ (opt : Optimizer (XR × GjrVar)) (run : OptRun (XR × GjrVar)),
        run = opt (gjrFeas zeroMean) (Model.Rounded.objValue fun p : XR × GjrVar => Model.Rounded.gjrFitObjective M pw i cpp zeroMean (x.map .fin) p.1 p.2)
          (if zeroMean then 0 else Model.Rounded.mean M i (x.map .fin), p0) →
        (run.success = false → Model.Rounded.gjrFit M pw i cpp zeroMean (x.map .fin) opt = .ok none) ∧
        (run.success = true →
          run.f = Model.Rounded.objValue (fun p : XR × GjrVar => Model.Rounded.gjrFitObjective M pw i cpp zeroMean (x.map .fin) p.1 p.2) run.x →
          (zeroMean = false → Mean M run.x.1) → Omega M run.x.2.omega → Coef M run.x.2.alpha → Coef M run.x.2.gamma → Coef M run.x.2.beta →
          ∃ f : ℝ, Model.Rounded.gjrFit M pw i cpp zeroMean (x.map .fin) opt = .ok (some (if zeroMean then 0 else run.x.1, run.x.2, .fin f)) ∧
            Model.Rounded.gjrFitObjective M pw i cpp zeroMean (x.map .fin) (if zeroMean then 0 else run.x.1) run.x.2 = .ok (.fin (-f)) ∧
            (run.f ≤ .fin f0 → -f0 ≤ f)) := by
  obtain ⟨p0, h1, -, -, -, -, -, f0, h2⟩ := C212_gjr_start M hM hlog hlp blp pw hpw i cpp zeroMean x hx
  refine ⟨_, f0, h1, h2, ?_⟩
  intro opt run hrun
  have hfit : Model.Rounded.gjrFit M pw i cpp zeroMean (x.map .fin) opt =
      .ok (if run.success then some (if zeroMean then 0 else run.x.1, run.x.2, -run.f) else none) := by
    rw [hrun]
    unfold Model.Rounded.gjrFit Model.Rounded.fitWith
    rw [h1]
    rfl
  refine ⟨fun hs => by rw [hfit, hs]; rfl, ?_⟩
  intro hs k1 k2 k3 k4 k5 k6
  have hm : Mean M (if zeroMean then 0 else run.x.1) := by
    cases zeroMean
    · exact k2 rfl
    · exact ⟨0, rfl, by norm_num, Rounding.rd_zero⟩
  obtain ⟨f, hf, -⟩ := C211_gjr M hM hlog hlp blp pw hpw i cpp zeroMean x hx _ hm run.x.2 k3 k4 k5 k6
  have hf' : run.f = .fin f := by
    rw [k1]
    unfold Model.Rounded.objValue
    have : Model.Rounded.gjrFitObjective M pw i cpp zeroMean (x.map .fin) run.x.1 run.x.2 = .ok (.fin f) := by
      rw [← hf]
      cases zeroMean <;> rfl
    simp only [this]
  refine ⟨-f, ?_, by rw [neg_neg]; exact hf, ?_⟩
  · rw [hfit, hs, hf', XR.fin_neg]; rfl
  · intro hle
    rw [hf', XR.fin_le] at hle
    linarith

/-! ### without rounding -/

/-- C212. Without rounding the starting values are those of the exact model. -/
theorem C212_exact (i : ℕ) (cpp : Bool) :
    (∀ o : GarchObj GarchVar, Model.Rounded.garchStart Machine.exact (fun k => .fin ((94 / 100 : ℝ) ^ k)) i cpp o.zeroMean o.returns =
      (Model.varianceBounds cpp (Model.prepResids o)).bind fun vb : List (XR × XR) =>
        Model.garchStart cpp o.returns (Model.prepResids o) (Model.backcast (Model.prepResids o)) vb) ∧
    (∀ o : GarchObj GjrVar, Model.Rounded.gjrStart Machine.exact (fun k => .fin ((94 / 100 : ℝ) ^ k)) i cpp o.zeroMean o.returns =
      Model.gjrStart cpp o.returns (Model.prepResids o)) := by
  have b := fun x y => (RoundedDcc.exact_ops x y).2.1
  have c := fun x y => (RoundedDcc.exact_ops x y).2.2.1
  have d := fun x y => (RoundedDcc.exact_ops x y).2.2.2
  have hs : ∀ (i : ℕ) (l : List XR), Machine.exact.sum i l = l.sum := fun _ _ => rfl
  have hr : ∀ x, Machine.exact.R.round x = x := Machine.exact_round
  have hsq : ∀ x : XR, XR.sq x = x * x := fun x => rfl
  have hm : ∀ (z : Bool) (r : List XR), Model.Rounded.prepResids Machine.exact z i r = if z then r else demean r (Np.mean r) := by
    intro z r
    unfold Model.Rounded.prepResids Model.Rounded.modelResids Model.Rounded.mean demean Np.mean
    simp only [b, d, hs, hr]
  have hv : ∀ r : List XR, Model.Rounded.npVar Machine.exact i r = Np.var r := by
    intro r
    unfold Model.Rounded.npVar Np.var Model.Rounded.mean Np.mean
    simp only [b, c, d, hs, hr, hsq]
  have ha : Model.Rounded.alphaGrid Machine.exact = alphaGrid := rfl
  have hp : Model.Rounded.persistenceGrid Machine.exact = persistenceGrid := rfl
  have hg : ∀ {P : Type} (cands : List P) (path : P → Except PyErr (List XR)) (r : List XR),
      Model.Rounded.gridSearch Machine.exact cands path r = Model.gridSearch cands path r := by
    intro P cands path r
    unfold Model.Rounded.gridSearch Model.gridSearch
    simp only [RoundedLik.exact_loglik]
  refine ⟨fun o => ?_, fun o => ?_⟩
  · unfold Model.Rounded.garchStart Model.garchStart Model.Rounded.garchCands garchCands
    simp only [hm, hv, ha, hp, hg, b, c, (C211_exact i cpp _).1, (C211_exact i cpp _).2,
      fun v r bc vb => (C152_exact v ⟨0, 0, 0, 0⟩ r bc 0 0 vb cpp).1]
    rfl
  · unfold Model.Rounded.gjrStart Model.gjrStart Model.Rounded.gjrCands gjrCands
    simp only [hm, hv, ha, hp, hg, b, c, d, (C211_exact i cpp _).1, (C211_exact i cpp _).2,
      fun v r bc vb => (C152_exact ⟨0, 0, 0⟩ v r bc 0 0 vb cpp).2.1]
    rfl

/-- C212. Without rounding a fit of a fresh object stores what the exact model stores (and raises what it raises), for every optimiser. -/
theorem C212_exact_fit (i : ℕ) (cpp : Bool) :
    (∀ (o : GarchObj GarchVar) (opt : Optimizer (XR × GarchVar)), o.success = false → o.params = none →
      Model.Rounded.garchFit Machine.exact (fun k => .fin ((94 / 100 : ℝ) ^ k)) i cpp o.zeroMean o.returns opt =
        (Model.garchFit cpp opt o).map fun (x : GarchObj GarchVar × Option (Option (XR × GarchVar × XR))) => x.1.params) ∧
    (∀ (o : GarchObj GjrVar) (opt : Optimizer (XR × GjrVar)), o.params = none →
      Model.Rounded.gjrFit Machine.exact (fun k => .fin ((94 / 100 : ℝ) ^ k)) i cpp o.zeroMean o.returns opt =
        (Model.gjrFit cpp opt o).map fun (x : GarchObj GjrVar × Option (Option (XR × GjrVar × XR))) => x.1.params) := by
  have hs : ∀ (i : ℕ) (l : List XR), Machine.exact.sum i l = l.sum := fun _ _ => rfl
  have hr : ∀ x, Machine.exact.R.round x = x := Machine.exact_round
  have d := fun x y => (RoundedDcc.exact_ops x y).2.2.2
  have hmean : ∀ r : List XR, Model.Rounded.mean Machine.exact i r = Np.mean r := by
    intro r
    unfold Model.Rounded.mean Np.mean
    simp only [d, hs, hr]
  refine ⟨fun o opt h1 h2 => ?_, fun o opt h2 => ?_⟩
  · unfold Model.Rounded.garchFit Model.Rounded.fitWith Model.garchFit fitCore
    rw [(C212_exact i cpp).1 o, h1, hmean]
    rcases hvb : Model.varianceBounds cpp (Model.prepResids o) with e | vb
    · simp [hvb, Except.bind, Except.map, bind]
    · rcases hst : Model.garchStart cpp o.returns (Model.prepResids o) (Model.backcast (Model.prepResids o)) vb with e | v0
      · simp [Except.bind, Except.map, bind, hvb, hst]
      · have hobj : (Model.Rounded.objValue fun p : XR × GarchVar => Model.Rounded.garchFitObjective Machine.exact
            (fun k => .fin ((94 / 100 : ℝ) ^ k)) i cpp o.zeroMean o.returns p.1 p.2) =
            objective (garchVariance cpp) o (Model.backcast (Model.prepResids o)) vb := by
          funext p
          unfold Model.Rounded.objValue objective
          beta_reduce
          rw [(C211_exact_objective i cpp).1 o p, hvb]
          rcases hmp : modelPath (garchVariance cpp) o (Model.backcast (Model.prepResids o)) vb p with e | x <;> simp only [Except.bind, Except.map, hmp]
        cases v0 with
        | none => simp [Except.bind, Except.map, bind, hvb, hst]
        | some v0 =>
          rw [hobj]
          simp only [Except.bind, Except.map, bind, hvb, hst, pure, Except.pure]
          split_ifs <;> simp_all
  · unfold Model.Rounded.gjrFit Model.Rounded.fitWith Model.gjrFit fitCore
    rw [(C212_exact i cpp).2 o, hmean]
    rcases hvb : Model.varianceBounds cpp (Model.prepResids o) with e | vb
    · simp [Model.gjrStart, hvb, Except.bind, Except.map, bind]
    · rcases hst : Model.gjrStart cpp o.returns (Model.prepResids o) with e | v0
      · simp [Except.bind, Except.map, bind, hvb, hst]
      · have hobj : (Model.Rounded.objValue fun p : XR × GjrVar => Model.Rounded.gjrFitObjective Machine.exact
            (fun k => .fin ((94 / 100 : ℝ) ^ k)) i cpp o.zeroMean o.returns p.1 p.2) =
            objective (gjrVariance cpp) o (Model.backcast (Model.prepResids o)) vb := by
          funext p
          unfold Model.Rounded.objValue objective
          beta_reduce
          rw [(C211_exact_objective i cpp).2 o p, hvb]
          rcases hmp : modelPath (gjrVariance cpp) o (Model.backcast (Model.prepResids o)) vb p with e | x <;> simp only [Except.bind, Except.map, hmp]
        cases v0 with
        | none => simp [Except.bind, Except.map, bind, hvb, hst]
        | some v0 =>
          rw [hobj]
          simp only [Except.bind, Except.map, bind, hvb, hst, pure, Except.pure]
          split_ifs <;> simp_all

/-- a fresh object whose optimiser stops at once at the start -/
example (cpp : Bool) (opt : Optimizer (XR × GjrVar)) :
    Model.Rounded.gjrFit Machine.exact (fun k => .fin ((94 / 100 : ℝ) ^ k)) 0 cpp true [.fin 1, .fin (-2)] opt =
      (Model.gjrFit cpp opt ⟨[.fin 1, .fin (-2)], true, false, none, [], [], .nan, none⟩).map
        fun (x : GarchObj GjrVar × Option (Option (XR × GjrVar × XR))) => x.1.params :=
  (C212_exact_fit 0 cpp).2 ⟨[.fin 1, .fin (-2)], true, false, none, [], [], .nan, none⟩ opt rfl

/-! ### IEEE arithmetic meets the hypotheses -/

/-- a successful run at `alpha = beta = 1/2`, `omega = 1`, with the value of the objective there -/
example (i : ℕ) (cpp : Bool) : ∃ f : ℝ, Model.Rounded.garchFit Machine.ieee (fun k => Machine.ieee.R.rd ((94 / 100 : ℝ) ^ k)) i cpp false
    (([1, -1, 2] : List ℝ).map .fin) (fun _ obj _ => ⟨[], true, (1, ⟨1, .fin (1 / 2), .fin (1 / 2)⟩), obj (1, ⟨1, .fin (1 / 2), .fin (1 / 2)⟩)⟩) =
    .ok (some (1, ⟨1, .fin (1 / 2), .fin (1 / 2)⟩, .fin f)) := by
  obtain ⟨lp, h1, blp⟩ := CccFloat.ieee_log2pi
  obtain ⟨c1, c2, c3, c4⟩ := PrepFloat.ieee_coef
  obtain ⟨p0, f0, -, -, key⟩ := C212_garch_fit Machine.ieee rfl PrepFloat.ieee_range h1 blp _ PrepFloat.ieee_decay i cpp false [1, -1, 2]
    PrepFloat.ieee_data
  obtain ⟨f, hf, -⟩ := (key (fun _ obj _ => ⟨[], true, (1, ⟨1, .fin (1 / 2), .fin (1 / 2)⟩), obj (1, ⟨1, .fin (1 / 2), .fin (1 / 2)⟩)⟩) _ rfl).2 rfl rfl
    (fun _ => c4) c3 c2 c2
  exact ⟨f, hf⟩

example (i : ℕ) (cpp zeroMean : Bool) : ∃ (p : GjrVar) (f : ℝ), Model.Rounded.gjrStart Machine.ieee (fun k => Machine.ieee.R.rd ((94 / 100 : ℝ) ^ k)) i cpp zeroMean
    (([1, -1, 2] : List ℝ).map .fin) = .ok (some p) ∧
    (∀ opt : Optimizer (XR × GjrVar), (∀ feas obj start, (opt feas obj start).success = false) →
      Model.Rounded.gjrFit Machine.ieee (fun k => Machine.ieee.R.rd ((94 / 100 : ℝ) ^ k)) i cpp zeroMean (([1, -1, 2] : List ℝ).map .fin) opt = .ok none) ∧
    Model.Rounded.gjrFitObjective Machine.ieee (fun k => Machine.ieee.R.rd ((94 / 100 : ℝ) ^ k)) i cpp zeroMean (([1, -1, 2] : List ℝ).map .fin)
      (if zeroMean then 0 else Model.Rounded.mean Machine.ieee i (([1, -1, 2] : List ℝ).map .fin)) p = .ok (.fin f) := by
  obtain ⟨lp, h1, blp⟩ := CccFloat.ieee_log2pi
  obtain ⟨p0, f0, e1, e2, key⟩ := C212_gjr_fit Machine.ieee rfl PrepFloat.ieee_range h1 blp _ PrepFloat.ieee_decay i cpp zeroMean [1, -1, 2]
    PrepFloat.ieee_data
  exact ⟨p0, f0, e1, fun opt ho => (key opt _ rfl).1 (ho _ _ _), e2⟩

/-- a constant zero-mean series in exact arithmetic -/
example (cpp : Bool) (o : GarchObj GarchVar) (vb : List (XR × XR)) (h : Model.varianceBounds cpp (Model.prepResids o) = .ok vb) :
    Model.Rounded.garchStart Machine.exact (fun k => .fin ((94 / 100 : ℝ) ^ k)) 0 cpp o.zeroMean o.returns =
      Model.garchStart cpp o.returns (Model.prepResids o) (Model.backcast (Model.prepResids o)) vb := by
  rw [(C212_exact 0 cpp).1 o, h]
  rfl

end
end Frds.Props
