import Verif.Props.Rounded

/-! Spreads, price impact and depth measures in rounded arithmetic. -/
namespace Frds.Props
noncomputable section
open Frds Frds.Model Classical Rounded Rounding
set_option linter.unusedSimpArgs false

/-- C149: with a `log` that is finite and monotone on positive numbers, the computed log quoted spread is not negative
and not NaN. -/
theorem C149_log (M : Machine) (hfin : ∀ a, 0 < a → ∃ r, M.log (.fin a) = .fin r)
    (hmono : ∀ a b, 0 < a → a ≤ b → M.log (.fin a) ≤ M.log (.fin b)) (q : List (ℝ × ℝ)) (hne : q ≠ [])
    (hn : q.length ≤ 2 ^ M.R.prec) (hq : ∀ x ∈ q, 0 < x.1 ∧ x.1 ≤ x.2) :
    ∃ r, Model.Rounded.quotedSpread M (q.map fun x => .fin x.1) (q.map fun x => .fin x.2) false = .ok r ∧ 0 ≤ r := by
  have hl : List.zipWith (fun a b => M.R.sub (M.log a) (M.log b)) (q.map fun x => XR.fin x.2)
      (q.map fun x => XR.fin x.1) = q.map fun x => M.R.sub (M.log (.fin x.2)) (M.log (.fin x.1)) := by
    rw [List.zipWith_map, List.zipWith_self]
  refine ⟨Model.Rounded.mean M 0 (q.map fun x => M.R.sub (M.log (.fin x.2)) (M.log (.fin x.1))), by
    simp only [Model.Rounded.quotedSpread, List.length_map, ne_eq, not_true_eq_false, if_false, hl, Bool.false_eq_true],
    ?_⟩
  have hs := (M.sum_ok 0 (q.map fun x => M.R.sub (M.log (.fin x.2)) (M.log (.fin x.1)))).nonneg (by
    intro x hx
    obtain ⟨y, hy, rfl⟩ := List.mem_map.mp hx
    obtain ⟨h1, h2⟩ := hq y hy
    obtain ⟨u, hu⟩ := hfin y.1 h1
    obtain ⟨v, hv⟩ := hfin y.2 (h1.trans_le h2)
    have := hmono y.1 y.2 h1 h2
    rw [hu, hv, XR.fin_le] at this
    refine ⟨?_, rep_sub _ _⟩
    rw [hu, hv]
    unfold Rounding.sub
    rw [XR.fin_sub]
    exact rd_nonneg (by linarith))
  have hpos : (0 : ℝ) < q.length := by exact_mod_cast List.length_pos_iff.mpr hne
  unfold Model.Rounded.mean Rounding.div
  rw [List.length_map, show M.R.round (.fin q.length) = .fin q.length from rep_nat hn]
  apply round_nonneg
  rcases XR.nonneg_cases hs.1 with h | ⟨s, hs', h⟩
  · rw [h]
    show 0 ≤ (if (q.length : ℝ) < 0 then XR.ninf else XR.pinf)
    rw [if_neg (by linarith)]
    trivial
  · rw [h, XR.fin_div _ hpos.ne']
    exact XR.fin_le.mpr (by positivity)

example : ∃ r, Model.Rounded.quotedSpread Machine.exact [.fin 9, .fin 1] [.fin 11, .fin 3] false = .ok r ∧ 0 ≤ r := by
  refine C149_log Machine.exact (fun a h => ⟨_, XR.fin_log h⟩) (fun a b h hab => ?_) [(9, 11), (1, 3)] (by simp)
    (by decide) ?_
  · rw [ex_log, ex_log, XR.fin_log h, XR.fin_log (h.trans_le hab)]
    exact XR.fin_le.mpr (Real.log_le_log h hab)
  · intro x hx
    simp only [List.mem_cons, List.not_mem_nil, or_false] at hx
    rcases hx with rfl | rfl <;> norm_num

/-! ### C150: undirected spreads and price impact -/

namespace Rounded

theorem good_nanmean (M : Machine) (i : ℕ) (l : List XR) (h : ∀ x ∈ l, Good x) : Good (Model.Rounded.nanmean M i l) := by
  apply good_div
  · apply (M.sum_ok i _).good
    intro x hx
    obtain ⟨y, hy, rfl⟩ := List.mem_map.mp hx
    split_ifs
    · exact Or.inr (XR.fin_le.mpr le_rfl)
    · exact h y hy
  · exact good_round (good_nat _)

/-- weighting by dollar volume: no error, and NaN or not negative -/
theorem good_weighted (M : Machine) (spread : List XR) (vp : List (ℝ × ℝ)) (hlen : spread.length = vp.length)
    (hs : ∀ x ∈ spread, Good x) (hv : ∀ x ∈ vp, 0 ≤ x.1 ∧ 0 ≤ x.2) :
    ∃ r, Model.Rounded.dollarWeighted M spread (vp.map fun x => .fin x.1) (vp.map fun x => .fin x.2) = .ok r ∧
      Good r := by
  have hb : Np.bcast (fun v p => M.R.mul v p) (vp.map fun x => XR.fin x.1) (vp.map fun x => XR.fin x.2) =
      .ok (vp.map fun x => M.R.mul (.fin x.1) (.fin x.2)) := by
    simp only [Np.bcast, List.length_map, if_true]
    rw [List.zipWith_map, List.zipWith_self]
  unfold Model.Rounded.dollarWeighted
  rw [hb]
  simp only [bind, Except.bind]
  have hdv : ∀ x ∈ vp.map fun x => M.R.mul (XR.fin x.1) (.fin x.2), 0 ≤ x ∧ M.R.Rep x := by
    intro x hx
    obtain ⟨y, hy, rfl⟩ := List.mem_map.mp hx
    exact ⟨mul_nonneg_fin (hv y hy).1 (hv y hy).2, rep_mul _ _⟩
  split_ifs with hall
  · exact ⟨_, rfl, good_nanmean M 0 spread hs⟩
  · obtain ⟨s1, s2, s3⟩ := (M.sum_ok 1 _).nonneg hdv
    have hne : ¬ XR.feq (M.sum 1 (vp.map fun x => M.R.mul (.fin x.1) (.fin x.2))) 0 := by
      rintro ⟨h, _⟩
      apply hall
      intro v hv'
      have h1 := s3 v hv'
      rw [h] at h1
      have h2 := (hdv v hv').1
      rcases XR.nonneg_cases h2 with rfl | ⟨a, ha, rfl⟩
      · exact False.elim h1
      · exact XR.feq_fin.mpr (le_antisymm (XR.fin_le.mp h1) ha)
    unfold Model.Rounded.average
    rw [if_neg (by simp [hlen]), if_neg hne]
    refine ⟨_, rfl, good_div ((M.sum_ok _ _).good ?_) (Or.inr s1)⟩
    intro x hx
    obtain ⟨j, hj, rfl⟩ := List.mem_iff_getElem.mp hx
    rw [List.getElem_zipWith]
    exact good_mul (hs _ (List.getElem_mem _)) (Or.inr (hdv _ (List.getElem_mem _)).1)

theorem good_absPct (M : Machine) (x y : XR) {m : ℝ} (hm : 0 < m) : Good (Model.Rounded.absPct M x y (.fin m)) := by
  unfold Model.Rounded.absPct
  have h2 : Good (2 : XR) := good_nat 2
  have h100 : Good (100 : XR) := good_nat 100
  exact good_mul (good_div (good_mul h2 good_abs) (Or.inr (XR.fin_le.mpr hm.le))) h100

theorem good_absLog (M : Machine) (x y : XR) : Good (Model.Rounded.absLog M x y) := good_mul (good_nat 2) good_abs

theorem good_tradeSpreads (M : Machine) (x y : List XR) (m : List ℝ) (dir : TradeDir) (hd : ∀ d, dir ≠ .array d)
    (pct : Bool) (hm : ∀ v ∈ m, 0 < v) : ∀ s ∈ Model.Rounded.tradeSpreads M x y (m.map .fin) dir pct, Good s := by
  intro s hs
  have e : Model.Rounded.tradeSpreads M x y (m.map .fin) dir pct =
      if pct then List.zipWith (fun (p : XR × XR) m => Model.Rounded.absPct M p.1 p.2 m) (List.zip x y) (m.map .fin)
      else List.zipWith (Model.Rounded.absLog M) x y := by
    cases dir with
    | array d => exact absurd rfl (hd d)
    | none => rfl
    | list d => rfl
  rw [e] at hs
  split_ifs at hs
  · obtain ⟨j, hj, rfl⟩ := List.mem_iff_getElem.mp hs
    rw [List.getElem_zipWith, List.getElem_map]
    exact good_absPct M _ _ (hm _ (List.getElem_mem _))
  · obtain ⟨j, hj, rfl⟩ := List.mem_iff_getElem.mp hs
    rw [List.getElem_zipWith]
    exact good_absLog M _ _

theorem len_tradeSpreads (M : Machine) (x y m : List XR) (dir : TradeDir) (hd : ∀ d, dir ≠ .array d) (pct : Bool) (n : ℕ)
    (hx : x.length = n) (hy : y.length = n) (hm : m.length = n) :
    (Model.Rounded.tradeSpreads M x y m dir pct).length = n := by
  have e : Model.Rounded.tradeSpreads M x y m dir pct =
      if pct then List.zipWith (fun (p : XR × XR) m => Model.Rounded.absPct M p.1 p.2 m) (List.zip x y) m
      else List.zipWith (Model.Rounded.absLog M) x y := by
    cases dir with
    | array d => exact absurd rfl (hd d)
    | none => rfl
    | list d => rfl
  rw [e]
  split_ifs <;> simp [hx, hy, hm]

theorem dirOk_of {dir : TradeDir} (hd : ∀ d, dir ≠ .array d) (n : ℕ) : Model.Rounded.dirOk dir n := by
  cases dir with
  | array d => exact absurd rfl (hd d)
  | none => trivial
  | list d => trivial

end Rounded

/-- one trade: price, midpoint, later midpoint, volume -/
structure Rounded.Trade where
  price : ℝ
  mid : ℝ
  later : ℝ
  volume : ℝ

/-- C150: without trade directions, the computed effective spread, realized spread and price impact never raise and are
never negative (NaN is possible after overflow). -/
theorem C150_nonneg (M : Machine) (l : List Trade) (dir : TradeDir) (hd : ∀ d, dir ≠ .array d) (pct : Bool)
    (h : ∀ t ∈ l, 0 ≤ t.price ∧ 0 < t.mid ∧ 0 ≤ t.volume) :
    (∃ r, Model.Rounded.effectiveSpread M (l.map fun t => .fin t.price) (l.map fun t => .fin t.mid)
      (l.map fun t => .fin t.volume) dir pct = .ok r ∧ ¬ r < 0) ∧
    (∃ r, Model.Rounded.realizedSpread M (l.map fun t => .fin t.price) (l.map fun t => .fin t.later)
      (l.map fun t => .fin t.mid) (l.map fun t => .fin t.volume) dir pct = .ok r ∧ ¬ r < 0) ∧
    (∃ r, Model.Rounded.simplePriceImpact M (l.map fun t => .fin t.price) (l.map fun t => .fin t.later)
      (l.map fun t => .fin t.mid) (l.map fun t => .fin t.volume) dir pct = .ok r ∧ ¬ r < 0) := by
  have hgood : ∀ r : XR, Good r → ¬ r < 0 := by
    rintro r (rfl | hr)
    · simp
    · rcases XR.nonneg_cases hr with rfl | ⟨a, ha, rfl⟩
      · simp
      · rw [XR.zero_def, XR.fin_lt]; linarith
  have hm : l.map (fun t => XR.fin t.mid) = (l.map Trade.mid).map .fin := by rw [List.map_map]; rfl
  have hmp : ∀ v ∈ l.map Trade.mid, 0 < v := by
    intro v hv
    obtain ⟨t, ht, rfl⟩ := List.mem_map.mp hv
    exact (h t ht).2.1
  have key : ∀ x y : List XR, x.length = l.length → y.length = l.length →
      ∃ r, Model.Rounded.dollarWeighted M (Model.Rounded.tradeSpreads M x y (l.map fun t => .fin t.mid) dir pct)
        (l.map fun t => .fin t.volume) (l.map fun t => .fin t.price) = .ok r ∧ ¬ r < 0 := by
    intro x y hx hy
    obtain ⟨r, h1, h2⟩ := good_weighted M (Model.Rounded.tradeSpreads M x y (l.map fun t => .fin t.mid) dir pct)
      (l.map fun t => (t.volume, t.price)) (by
        rw [len_tradeSpreads M x y _ dir hd pct l.length hx hy (by simp), List.length_map])
      (by rw [hm]; exact good_tradeSpreads M x y _ dir hd pct hmp) (by
        intro v hv
        obtain ⟨t, ht, rfl⟩ := List.mem_map.mp hv
        exact ⟨(h t ht).2.2, (h t ht).1⟩)
    rw [List.map_map, List.map_map] at h1
    exact ⟨r, h1, hgood r h2⟩
  refine ⟨?_, ?_, ?_⟩
  · unfold Model.Rounded.effectiveSpread
    rw [if_neg (by simp), if_neg (by simp [dirOk_of hd])]
    exact key _ _ (by simp) (by simp)
  · unfold Model.Rounded.realizedSpread
    rw [if_neg (by simp), if_neg (by simp [dirOk_of hd])]
    exact key _ _ (by simp) (by simp)
  · unfold Model.Rounded.simplePriceImpact
    rw [if_neg (by simp), if_neg (by simp [dirOk_of hd])]
    exact key _ _ (by simp) (by simp)

example : ∃ r, Model.Rounded.effectiveSpread Machine.ieee [.fin 10, .fin 3] [.fin 9, .fin 4] [.fin 100, .fin 0] .none
    true = .ok r ∧ ¬ r < 0 :=
  (C150_nonneg Machine.ieee [⟨10, 9, 9, 100⟩, ⟨3, 4, 4, 0⟩] .none (by simp) true (by
    intro t ht
    simp only [List.mem_cons, List.not_mem_nil, or_false] at ht
    rcases ht with rfl | rfl <;> norm_num)).1

namespace Rounded

theorem ex_nanmean (i : ℕ) (l : List XR) : Model.Rounded.nanmean Machine.exact i l = Np.nanmean l := by
  rw [Model.Rounded.nanmean, Np.nanmean, Np.mean, ex_div, ex_round, ex_sum]
  have hf : (l.filter fun v => decide (v ≠ XR.nan)) = l.filter fun v => decide (¬ v.isNan) := by
    apply List.filter_congr
    intro x _
    by_cases h : x = .nan <;> simp [XR.isNan, h]
  rw [hf]
  congr 1
  induction l with
  | nil => rfl
  | cons x t ih =>
    have ih' := ih (by
      apply List.filter_congr
      intro x _
      by_cases h : x = .nan <;> simp [XR.isNan, h])
    by_cases h : x = .nan
    · subst h
      simpa using ih'
    · have h' : ¬ x.isNan := h
      simp only [List.map_cons, List.sum_cons, if_neg h, ih']
      rw [List.filter_cons_of_pos (by simpa using h'), List.sum_cons]

theorem ex_average (i : ℕ) (x w : List XR) : Model.Rounded.average Machine.exact i x w = Np.average x w := by
  simp only [Model.Rounded.average, Np.average, ex_div, ex_sum, ex_mul]
  rfl

theorem ex_dollarWeighted (s v p : List XR) :
    Model.Rounded.dollarWeighted Machine.exact s v p = Model.dollarWeighted s v p := by
  simp only [Model.Rounded.dollarWeighted, Model.dollarWeighted, ex_nanmean, ex_average, ex_mul]

theorem zip3 (f : XR → XR → XR) (g : XR → XR → XR) (x y m : List XR) :
    List.zipWith (fun (p : XR × XR) m => g (f p.1 p.2) m) (List.zip x y) m = List.zipWith g (List.zipWith f x y) m := by
  induction x generalizing y m with
  | nil => simp
  | cons a t ih =>
    cases y with
    | nil => simp
    | cons b u =>
      cases m with
      | nil => simp
      | cons c v => simp [ih u v]

theorem zip4 (f : XR → XR → XR) (k : XR → XR → XR) (g : XR → XR → XR) (d x y m : List XR) :
    List.zipWith (fun (p : (XR × XR) × XR) m => g (k p.1.1 (f p.1.2 p.2)) m) (List.zip (List.zip d x) y) m =
      List.zipWith g (List.zipWith k d (List.zipWith f x y)) m := by
  induction d generalizing x y m with
  | nil => simp
  | cons a t ih =>
    cases x with
    | nil => simp
    | cons b u =>
      cases y with
      | nil => simp
      | cons c v =>
        cases m with
        | nil => simp
        | cons e w => simp [ih u v w]

theorem zip3' (f : XR → XR → XR) (k : XR → XR → XR) (d x y : List XR) :
    List.zipWith (fun (p : XR × XR) y => k p.1 (f p.2 y)) (List.zip d x) y = List.zipWith k d (List.zipWith f x y) := by
  induction d generalizing x y with
  | nil => simp
  | cons a t ih =>
    cases x with
    | nil => simp
    | cons b u =>
      cases y with
      | nil => simp
      | cons c v => simp [ih u v]

theorem ex_spreads_abs (x y m : List XR) :
    List.zipWith (fun (p : XR × XR) m => Model.Rounded.absPct Machine.exact p.1 p.2 m) (List.zip x y) m =
      List.zipWith (fun x m => x / m * 100) (List.zipWith (fun p m => 2 * XR.abs (p - m)) x y) m := by
  rw [← zip3]
  simp only [Model.Rounded.absPct, ex_mul, ex_div, ex_sub]

theorem ex_spreads_dir (d x y m : List XR) :
    List.zipWith (fun (p : (XR × XR) × XR) m => Model.Rounded.dirPct Machine.exact p.1.1 p.1.2 p.2 m)
      (List.zip (List.zip d x) y) m =
      List.zipWith (fun x m => x / m * 100) (List.zipWith (fun s x => 2 * s * x) d (List.zipWith (· - ·) x y)) m := by
  rw [← zip4 (· - ·) (fun s x => 2 * s * x) (fun x m => x / m * 100)]
  simp only [Model.Rounded.dirPct, ex_mul, ex_div, ex_sub]

theorem ex_spreads_dirLog (d x y : List XR) :
    List.zipWith (fun (p : XR × XR) y => Model.Rounded.dirLog Machine.exact p.1 p.2 y) (List.zip d x) y =
      List.zipWith (fun s x => 2 * s * x) d (List.zipWith (fun p m => XR.log p - XR.log m) x y) := by
  rw [← zip3' (fun p m => XR.log p - XR.log m) (fun s x => 2 * s * x)]
  simp only [Model.Rounded.dirLog, ex_mul, ex_div, ex_sub, ex_log]

theorem ex_spreads_absLog (x y : List XR) :
    List.zipWith (Model.Rounded.absLog Machine.exact) x y =
      List.zipWith (fun p m => 2 * XR.abs (XR.log p - XR.log m)) x y := by
  have : Model.Rounded.absLog Machine.exact = fun p m => 2 * XR.abs (XR.log p - XR.log m) := by
    funext p m
    simp only [Model.Rounded.absLog, ex_mul, ex_div, ex_sub, ex_log]
  rw [this]

end Rounded

/-- C150: without rounding the computations are the exact ones. -/
theorem C150_exact (price later mid volume : List XR) (dir : TradeDir) (pct : Bool) :
    Model.Rounded.effectiveSpread Machine.exact price mid volume dir pct = Model.effectiveSpread price mid volume dir pct ∧
    Model.Rounded.realizedSpread Machine.exact price later mid volume dir pct =
      Model.realizedSpread price later mid volume dir pct ∧
    Model.Rounded.simplePriceImpact Machine.exact price later mid volume dir pct =
      Model.simplePriceImpact price later mid volume dir pct := by
  refine ⟨?_, ?_, ?_⟩
  · cases dir <;> cases pct <;>
      simp only [Model.Rounded.effectiveSpread, Model.effectiveSpread, Model.Rounded.tradeSpreads, Model.Rounded.dirOk, ex_dollarWeighted,
        ex_spreads_abs, ex_spreads_absLog, ex_spreads_dir, ex_spreads_dirLog, not_true_eq_false, if_false, if_true,
        Bool.false_eq_true, ne_eq]
  · cases dir <;> cases pct <;>
      simp only [Model.Rounded.realizedSpread, Model.realizedSpread, Model.Rounded.tradeSpreads, Model.Rounded.dirOk, ex_dollarWeighted,
        ex_spreads_abs, ex_spreads_absLog, ex_spreads_dir, ex_spreads_dirLog, not_true_eq_false, if_false, if_true,
        Bool.false_eq_true, ne_eq]
  · cases dir <;> cases pct <;>
      simp only [Model.Rounded.simplePriceImpact, Model.simplePriceImpact, Model.Rounded.tradeSpreads, Model.Rounded.dirOk, ex_dollarWeighted,
        ex_spreads_abs, ex_spreads_absLog, ex_spreads_dir, ex_spreads_dirLog, not_true_eq_false, if_false, if_true,
        Bool.false_eq_true, ne_eq]

/-! ### C151: scaled depth difference -/

namespace Rounded

theorem rd_abs {R : Rounding} {r m : ℝ} (h1 : -m ≤ r) (h2 : r ≤ m) (hm : R.Rep (.fin m)) :
    ∃ x, R.rd r = .fin x ∧ -m ≤ x ∧ x ≤ m := by
  have a1 := round_le (x := .fin r) hm (XR.fin_le.mpr h2)
  have a2 := le_round (y := .fin r) (neg_rep hm) (XR.fin_le.mpr h1)
  rw [round_fin] at a1 a2
  cases h : R.rd r with
  | nan => exact absurd h (rd_ne_nan r)
  | ninf => rw [h] at a2; exact False.elim a2
  | pinf => rw [h] at a1; exact False.elim a1
  | fin x => rw [h] at a1 a2; exact ⟨x, rfl, XR.fin_le.mp a2, XR.fin_le.mp a1⟩

/-- one entry: depths `b`, `a` whose doubles do not overflow -/
theorem depthDiff_range (M : Machine) (hp : 1 ≤ M.R.prec) {b a : ℝ} (hb : 0 ≤ b) (ha : 0 ≤ a) (rb : M.R.Rep (.fin b))
    (ra : M.R.Rep (.fin a)) (ob : M.R.rd (2 * b) ≠ .pinf) (oa : M.R.rd (2 * a) ≠ .pinf) :
    (Model.Rounded.depthDiff M (.fin b) (.fin a) = .nan ∧ a = 0 ∧ b = 0) ∨
    (.fin (-2) ≤ Model.Rounded.depthDiff M (.fin b) (.fin a) ∧ Model.Rounded.depthDiff M (.fin b) (.fin a) ≤ .fin 2) := by
  obtain ⟨m, hm, rm, om, hbm, ham⟩ : ∃ m, (m = a ∨ m = b) ∧ M.R.Rep (.fin m) ∧ M.R.rd (2 * m) ≠ .pinf ∧ b ≤ m ∧ a ≤ m := by
    rcases le_total a b with h | h
    · exact ⟨b, Or.inr rfl, rb, ob, le_rfl, h⟩
    · exact ⟨a, Or.inl rfl, ra, oa, h, le_rfl⟩
  have hm0 : 0 ≤ m := hb.trans hbm
  obtain ⟨x, hx, hx1, hx2⟩ := rd_abs (R := M.R) (r := a - b) (m := m) (by linarith) (by linarith) rm
  have h2m : M.R.rd (2 * m) = .fin (2 * m) := (M.R.double m hm0 rm).resolve_right om
  -- doubling the difference is exact
  have h2x : M.R.rd (2 * x) = .fin (2 * x) := by
    have hxx : M.R.rd x = .fin x := M.R.idem _ _ hx
    rcases le_total 0 x with h | h
    · rcases M.R.double x h hxx with h1 | h1
      · exact h1
      · have := M.R.mono (2 * x) (2 * m) (by linarith)
        rw [h1, h2m] at this
        exact False.elim this
    · have hn : M.R.rd (-x) = .fin (-x) := by rw [M.R.neg, hxx]; rfl
      have e : 2 * x = -(2 * -x) := by ring
      rcases M.R.double (-x) (by linarith) hn with h1 | h1
      · rw [e, M.R.neg, h1]; rfl
      · have := M.R.mono (2 * -x) (2 * m) (by linarith)
        rw [h1, h2m] at this
        exact False.elim this
  have hnum : M.R.mul 2 (M.R.sub (.fin a) (.fin b)) = .fin (2 * x) := by
    unfold Rounding.sub
    rw [XR.fin_sub, round_fin, hx]
    exact h2x
  have rep2 : M.R.Rep (.fin 2) := rep_two hp
  have hden : .fin m ≤ M.R.add (.fin a) (.fin b) := le_round rm (XR.fin_le.mpr (by rcases hm with h | h <;> linarith))
  unfold Model.Rounded.depthDiff
  rw [hnum]
  rcases XR.nonneg_cases (XR.le_trans' (XR.nonneg_fin.mpr hm0) hden) with h | ⟨d, hd, h⟩
  · right
    rw [h]
    show .fin (-2) ≤ M.R.round (.fin 0) ∧ M.R.round (.fin 0) ≤ .fin 2
    rw [show M.R.round (.fin 0) = .fin 0 from rep_zero]
    exact ⟨XR.fin_le.mpr (by norm_num), XR.fin_le.mpr (by norm_num)⟩
  · rw [h] at hden ⊢
    rw [XR.fin_le] at hden
    rcases hd.eq_or_lt with rfl | hd
    · left
      have hm00 : m = 0 := le_antisymm hden hm0
      have hx0 : x = 0 := by rw [hm00] at hx1 hx2; linarith
      unfold Rounding.div
      rw [hx0, XR.fin_div_zero, mul_zero, XR.infSign_zero]
      exact ⟨rfl, by linarith, by linarith⟩
    · right
      unfold Rounding.div
      rw [XR.fin_div _ hd.ne']
      constructor
      · exact le_round (neg_rep (R := M.R) (x := .fin 2) rep2) (XR.fin_le.mpr (by rw [le_div_iff₀ hd]; linarith))
      · exact round_le rep2 (XR.fin_le.mpr (by rw [div_le_iff₀ hd]; linarith))

/-- mean of the non-NaN entries, each between -2 and 2 -/
theorem nanmean_range (M : Machine) (i : ℕ) (hp : 1 ≤ M.R.prec) (l : List XR) (hn : 2 * l.length ≤ 2 ^ M.R.prec)
    (hl : ∀ x ∈ l, x = .nan ∨ (.fin (-2) ≤ x ∧ x ≤ .fin 2)) (hex : ∃ x ∈ l, x ≠ .nan) :
    .fin (-2) ≤ Model.Rounded.nanmean M i l ∧ Model.Rounded.nanmean M i l ≤ .fin 2 := by
  have hw := (M.sum_ok i (l.map fun v => if v = .nan then 0 else v)).le_weights (fun x => if x = 0 then 0 else 2)
  have hsum : ((l.map fun v => if v = XR.nan then 0 else v).map fun x => if x = 0 then 0 else 2).sum ≤
      2 * (l.filter fun v => v ≠ .nan).length := by
    clear hn hl hex hw
    induction l with
    | nil => simp
    | cons x t ih =>
      by_cases h : x = .nan
      · subst h
        simpa using ih
      · rw [List.filter_cons_of_pos (by simpa using h)]
        simp only [List.map_cons, List.sum_cons, if_neg h, List.length_cons]
        split_ifs <;> omega
  have hfl : (l.filter fun v => v ≠ .nan).length ≤ l.length := List.length_filter_le _ _
  obtain ⟨b1, b2⟩ := hw (by omega) (by
    intro x hx
    obtain ⟨y, hy, rfl⟩ := List.mem_map.mp hx
    by_cases h : y = .nan
    · simp [h, XR.zero_def]
    · rw [if_neg h]
      have := (hl y hy).resolve_left h
      by_cases h0 : y = 0
      · simp [h0, XR.zero_def]
      · rw [if_neg h0]
        exact ⟨by simpa using this.2, by simpa using this.1⟩)
  have hpos : (0 : ℝ) < (l.filter fun v => v ≠ .nan).length := by
    obtain ⟨x, hx, hxn⟩ := hex
    have : x ∈ l.filter fun v => v ≠ .nan := by simp [hx, hxn]
    exact_mod_cast List.length_pos_of_mem this
  have hle : ((((l.map fun v => if v = XR.nan then 0 else v).map fun x => if x = 0 then 0 else 2).sum : ℕ) : ℝ) ≤
      2 * (l.filter fun v => v ≠ .nan).length := by exact_mod_cast hsum
  have rep2 : M.R.Rep (.fin 2) := rep_two hp
  unfold Model.Rounded.nanmean Rounding.div
  rw [show M.R.round (.fin (l.filter fun v => v ≠ .nan).length) = .fin (l.filter fun v => v ≠ .nan).length from
    rep_nat (by omega)]
  cases hs : M.sum i (l.map fun v => if v = .nan then 0 else v) with
  | nan => rw [hs] at b1; exact False.elim b1
  | ninf => rw [hs] at b2; exact False.elim b2
  | pinf => rw [hs] at b1; exact False.elim b1
  | fin s =>
    rw [hs, XR.fin_le] at b1 b2
    rw [XR.fin_div _ hpos.ne']
    constructor
    · exact le_round (neg_rep (R := M.R) (x := .fin 2) rep2) (XR.fin_le.mpr (by rw [le_div_iff₀ hpos]; linarith))
    · exact round_le rep2 (XR.fin_le.mpr (by rw [div_le_iff₀ hpos]; linarith))

end Rounded

/-- C151: the computed scaled depth difference of books with non-negative sizes is between -2 and 2, as long as doubling
the computed depths does not overflow and some quote has a non-empty book. -/
theorem C151_range (M : Machine) (hp : 1 ≤ M.R.prec) (k : ℕ) (bid ask : List (List XR)) (hlen : bid.length = ask.length)
    (hn : 2 * bid.length ≤ 2 ^ M.R.prec) (hb : ∀ r ∈ bid, ∀ x ∈ r, 0 ≤ x ∧ M.R.Rep x)
    (ha : ∀ r ∈ ask, ∀ x ∈ r, 0 ≤ x ∧ M.R.Rep x)
    (hov : ∀ i, ∀ r ∈ bid ++ ask, M.R.mul 2 (M.sum i r) ≠ .pinf)
    (hex : ∃ r ∈ bid ++ ask, ∃ x ∈ r, 0 < x) :
    ∃ r, Model.Rounded.scaledDepthDifference M (.d2 k bid) (.d2 k ask) = .ok r ∧ .fin (-2) ≤ r ∧ r ≤ .fin 2 := by
  have hfin : ∀ i, ∀ r ∈ bid ++ ask, (∀ x ∈ r, 0 ≤ x ∧ M.R.Rep x) →
      ∃ v, 0 ≤ v ∧ M.sum i r = .fin v ∧ M.R.Rep (.fin v) ∧ M.R.rd (2 * v) ≠ .pinf := by
    intro i r hr hx
    obtain ⟨s1, s2, s3⟩ := (M.sum_ok i r).nonneg hx
    have ho := hov i r hr
    rcases XR.nonneg_cases s1 with h | ⟨v, hv, h⟩
    · rw [h] at ho
      exact absurd (show M.R.mul 2 .pinf = .pinf by
        show M.R.round (XR.infSign 2) = _
        rw [XR.infSign_pos (by norm_num)]; rfl) ho
    · rw [h] at s2 ho
      exact ⟨v, hv, h, s2, ho⟩
  have hB : ∀ j (hj : j < bid.length), ∃ v, 0 ≤ v ∧ M.sum (1 + 2 * j) bid[j] = .fin v ∧ M.R.Rep (.fin v) ∧
      M.R.rd (2 * v) ≠ .pinf := fun j hj =>
    hfin _ _ (List.mem_append_left _ (List.getElem_mem hj)) (hb _ (List.getElem_mem hj))
  have hA : ∀ j (hj : j < ask.length), ∃ v, 0 ≤ v ∧ M.sum (2 + 2 * j) ask[j] = .fin v ∧ M.R.Rep (.fin v) ∧
      M.R.rd (2 * v) ≠ .pinf := fun j hj =>
    hfin _ _ (List.mem_append_right _ (List.getElem_mem hj)) (ha _ (List.getElem_mem hj))
  refine ⟨Model.Rounded.nanmean M 0 (List.zipWith (Model.Rounded.depthDiff M)
    (bid.mapIdx fun j row => M.sum (1 + 2 * j) row) (ask.mapIdx fun j row => M.sum (2 + 2 * j) row)), ?_, ?_⟩
  · unfold Model.Rounded.scaledDepthDifference
    rw [if_neg (by simp [Arr.shape, hlen])]
    rfl
  · apply nanmean_range M 0 hp
    · simpa [hlen] using hn
    · intro x hx
      obtain ⟨j, hj, rfl⟩ := List.mem_iff_getElem.mp hx
      simp only [List.length_zipWith, List.length_mapIdx, lt_min_iff] at hj
      simp only [List.getElem_zipWith, List.getElem_mapIdx]
      obtain ⟨u, u1, u2, u3, u4⟩ := hB j hj.1
      obtain ⟨v, v1, v2, v3, v4⟩ := hA j hj.2
      rw [u2, v2]
      rcases depthDiff_range M hp u1 v1 u3 v3 u4 v4 with h | h
      · exact Or.inl h.1
      · exact Or.inr h
    · -- some entry is not NaN
      have main : ∃ j, ∃ (hj : j < bid.length) (hj' : j < ask.length),
          (∃ x ∈ bid[j], 0 < x) ∨ (∃ x ∈ ask[j], 0 < x) := by
        obtain ⟨r, hr, x, hx, hx0⟩ := hex
        rcases List.mem_append.mp hr with h | h
        · obtain ⟨j, hj, rfl⟩ := List.mem_iff_getElem.mp h
          exact ⟨j, hj, by omega, Or.inl ⟨x, hx, hx0⟩⟩
        · obtain ⟨j, hj, rfl⟩ := List.mem_iff_getElem.mp h
          exact ⟨j, by omega, hj, Or.inr ⟨x, hx, hx0⟩⟩
      obtain ⟨j, hj, hj', hpos⟩ := main
      refine ⟨_, List.getElem_mem (n := j) (by simp [hj, hj']), ?_⟩
      simp only [List.getElem_zipWith, List.getElem_mapIdx]
      obtain ⟨u, u1, u2, u3, u4⟩ := hB j hj
      obtain ⟨v, v1, v2, v3, v4⟩ := hA j hj'
      rw [u2, v2]
      rcases depthDiff_range M hp u1 v1 u3 v3 u4 v4 with h | h
      · exfalso
        obtain ⟨_, rfl, rfl⟩ := h
        rcases hpos with ⟨x, hx, hx0⟩ | ⟨x, hx, hx0⟩
        · have := ((M.sum_ok (1 + 2 * j) bid[j]).nonneg (hb _ (List.getElem_mem hj))).2.2 x hx
          rw [u2] at this
          cases x with
          | fin y => exact absurd (XR.fin_le.mp this) (not_le.mpr (XR.fin_lt.mp hx0))
          | pinf => exact this
          | ninf => exact hx0
          | nan => exact hx0
        · have := ((M.sum_ok (2 + 2 * j) ask[j]).nonneg (ha _ (List.getElem_mem hj'))).2.2 x hx
          rw [v2] at this
          cases x with
          | fin y => exact absurd (XR.fin_le.mp this) (not_le.mpr (XR.fin_lt.mp hx0))
          | pinf => exact this
          | ninf => exact hx0
          | nan => exact hx0
      · exact (XR.ne_nan_of_le h.2).1

namespace Rounded

/-- the sum of one number of the format is that number, in whatever way it is computed -/
theorem isSum_single {R : Rounding} {l : List XR} {s : XR} (h : R.IsSum l s) :
    (l = [] → s = 0) ∧ ∀ x, R.Rep x → l = [x] → s = x := by
  induction h with
  | nil => exact ⟨fun _ => rfl, by simp⟩
  | single y =>
    refine ⟨by simp, fun x _ e => ?_⟩
    simpa using e
  | @add l₁ l₂ s₁ s₂ _ _ h1 h2 =>
    refine ⟨fun e => ?_, fun x hx e => ?_⟩
    · obtain ⟨e1, e2⟩ := List.append_eq_nil_iff.mp e
      rw [h1.1 e1, h2.1 e2]
      unfold Rounding.add
      rw [XR.zero_add]
      exact rep_zero
    · rcases List.append_eq_singleton_iff.mp e with ⟨e1, e2⟩ | ⟨e1, e2⟩
      · rw [h1.1 e1, h2.2 x hx e2]
        unfold Rounding.add
        rw [XR.zero_add]
        exact hx
      · rw [h1.2 x hx e1, h2.1 e2]
        unfold Rounding.add
        rw [XR.add_zero]
        exact hx
  | perm hp _ ih =>
    refine ⟨fun e => ?_, fun x hx e => ?_⟩
    · subst e; exact ih.1 (List.perm_nil.mp hp)
    · subst e; exact ih.2 x hx (List.perm_singleton.mp hp)

theorem sum_single (M : Machine) (i : ℕ) {x : XR} (hx : M.R.Rep x) : M.sum i [x] = x :=
  (isSum_single (M.sum_ok i [x])).2 x hx rfl

end Rounded

example : ∃ r, Model.Rounded.scaledDepthDifference Machine.ieee (.d2 1 [[.fin 1]]) (.d2 1 [[.fin 3]]) = .ok r ∧
    .fin (-2) ≤ r ∧ r ≤ .fin 2 := by
  have hn : ∀ n : ℕ, n ≤ 2 ^ 53 → Machine.ieee.R.Rep (.fin n) := fun n h => rep_nat (R := Machine.ieee.R) h
  have h1 : Machine.ieee.R.Rep (.fin 1) := by simpa using hn 1 (by norm_num)
  have h3 : Machine.ieee.R.Rep (.fin 3) := by simpa using hn 3 (by norm_num)
  have h2 : Machine.ieee.R.rd (2 * 1) = .fin 2 := by
    have : Machine.ieee.R.rd ((2 : ℕ) : ℝ) = .fin ((2 : ℕ) : ℝ) := hn 2 (by norm_num)
    simpa using this
  have h6 : Machine.ieee.R.rd (2 * 3) = .fin 6 := by
    have : Machine.ieee.R.rd ((6 : ℕ) : ℝ) = .fin ((6 : ℕ) : ℝ) := hn 6 (by norm_num)
    norm_num at this ⊢
    exact this
  refine C151_range Machine.ieee (by decide) 1 [[.fin 1]] [[.fin 3]] rfl (by decide) ?_ ?_ ?_ ?_
  · intro r hr x hx
    simp only [List.mem_singleton] at hr
    subst hr
    simp only [List.mem_singleton] at hx
    subst hx
    exact ⟨XR.fin_le.mpr zero_le_one, h1⟩
  · intro r hr x hx
    simp only [List.mem_singleton] at hr
    subst hr
    simp only [List.mem_singleton] at hx
    subst hx
    exact ⟨XR.fin_le.mpr (by norm_num), h3⟩
  · intro i r hr
    simp only [List.cons_append, List.nil_append, List.mem_cons, List.not_mem_nil, or_false] at hr
    rcases hr with rfl | rfl
    · rw [sum_single _ _ h1]
      show Machine.ieee.R.rd (2 * 1) ≠ _
      rw [h2]; simp
    · rw [sum_single _ _ h3]
      show Machine.ieee.R.rd (2 * 3) ≠ _
      rw [h6]; simp
  · exact ⟨[.fin 1], by simp, .fin 1, by simp, by simp [XR.zero_def]⟩

/-- C151: the bound needs the condition on overflow. A book with nothing on the bid side and a depth whose double
overflows gives plus infinity. -/
theorem C151_overflow (M : Machine) (x : ℝ) (hx : 0 < x) (rx : M.R.Rep (.fin x)) (ho : M.R.rd (2 * x) = .pinf) :
    Model.Rounded.scaledDepthDifference M (.d2 1 [[.fin 0]]) (.d2 1 [[.fin x]]) = .ok .pinf := by
  have rx' : M.R.rd x = .fin x := rx
  have hd : Model.Rounded.depthDiff M (.fin 0) (.fin x) = .pinf := by
    unfold Model.Rounded.depthDiff
    have h1 : M.R.sub (.fin x) (.fin 0) = .fin x := by
      unfold Rounding.sub
      rw [XR.fin_sub, sub_zero]
      exact rx
    have h2 : M.R.add (.fin x) (.fin 0) = .fin x := by
      unfold Rounding.add
      rw [XR.fin_add, add_zero]
      exact rx
    have h3 : M.R.mul 2 (.fin x) = .pinf := ho
    rw [h1, h2, h3]
    show M.R.round (if x < 0 then XR.ninf else XR.pinf) = _
    rw [if_neg (by linarith)]
    rfl
  unfold Model.Rounded.scaledDepthDifference
  rw [if_neg (by simp [Arr.shape])]
  simp only [Model.Rounded.sumAxis1, bind, Except.bind, pure, Except.pure, List.mapIdx_cons, List.mapIdx_nil,
    sum_single M _ rep_zero, sum_single M _ rx, List.zipWith_cons_cons, List.zipWith_nil_left, hd]
  unfold Model.Rounded.nanmean
  have hs : M.sum 0 [XR.pinf] = .pinf := sum_single M 0 (x := .pinf) rfl
  have h1 : M.R.round (.fin ((1 : ℕ) : ℝ)) = .fin 1 := by
    rw [Nat.cast_one]
    exact rep_one
  simp only [List.map_cons, List.map_nil, XR.pinf_ne_nan, if_false, hs]
  rw [List.filter_cons_of_pos (by simp), List.filter_nil, List.length_singleton, h1]
  congr 1
  show M.R.round (if (1 : ℝ) < 0 then XR.ninf else XR.pinf) = _
  rw [if_neg (by norm_num)]
  rfl

/-- `2 ^ 1023` is such a depth in binary64 -/
example : Model.Rounded.scaledDepthDifference Machine.ieee (.d2 1 [[.fin 0]]) (.d2 1 [[.fin (2 ^ (1023 : ℤ))]]) =
    .ok .pinf := by
  have h0 : (2 : ℝ) ^ (1023 : ℤ) = ((1 : ℕ) : ℝ) * 2 ^ (1023 : ℤ) := by simp
  have h1 : (2 : ℝ) * 2 ^ (1023 : ℤ) = ((1 : ℕ) : ℝ) * 2 ^ (1024 : ℤ) := by
    rw [show (1024 : ℤ) = 1023 + 1 from rfl, zpow_add_one₀ (by norm_num)]
    push_cast
    ring
  apply C151_overflow Machine.ieee (2 ^ (1023 : ℤ)) (by positivity)
  · show binary64.rd (2 ^ (1023 : ℤ)) = _
    rw [Format.rd_of_nonneg (by positivity)]
    unfold Format.posRd
    have hv : binary64.val (2 ^ (1023 : ℤ)) = 2 ^ (1023 : ℤ) := by
      rw [h0]
      exact Format.val_exact (F := binary64) 1 1023 (by decide) (by decide)
    rw [hv, if_neg]
    rw [not_le]
    exact zpow_lt_zpow_right₀ (by norm_num) (by decide)
  · show binary64.rd (2 * 2 ^ (1023 : ℤ)) = _
    rw [Format.rd_of_nonneg (by positivity)]
    unfold Format.posRd
    have hv : binary64.val (2 * 2 ^ (1023 : ℤ)) = 2 ^ (1024 : ℤ) := by
      rw [h1, Format.val_exact (F := binary64) 1 1024 (by decide) (by decide)]
      rw [Nat.cast_one, one_mul]
    rw [hv, if_pos]
    exact zpow_le_zpow_right₀ (by norm_num) (by decide)

/-- C151: without rounding the computation is the exact one. -/
theorem C151_exact (bid ask : Arr) :
    Model.Rounded.scaledDepthDifference Machine.exact bid ask = Model.scaledDepthDifference bid ask := by
  have hz : ∀ x y : List XR, x.length = y.length →
      (do let num ← Np.bcast (· - ·) y x
          let den ← Np.bcast (· + ·) y x
          let sdd ← Np.bcast (· / ·) (num.map fun x => 2 * x) den
          return Np.nanmean sdd : Except PyErr XR) =
        .ok (Np.nanmean (List.zipWith (Model.Rounded.depthDiff Machine.exact) x y)) := by
    intro x y h
    have e : List.zipWith (· / ·) ((List.zipWith (· - ·) y x).map fun x : XR => 2 * x) (List.zipWith (· + ·) y x) =
        List.zipWith (Model.Rounded.depthDiff Machine.exact) x y := by
      clear h
      induction x generalizing y with
      | nil => cases y <;> simp
      | cons a t ih =>
        cases y with
        | nil => simp
        | cons b u =>
          simp only [List.zipWith_cons_cons, List.map_cons, ih u, Model.Rounded.depthDiff, ex_mul, ex_sub, ex_add,
            ex_div]
    simp only [Np.bcast, h, if_true, bind, Except.bind, pure, Except.pure, List.length_map, List.length_zipWith, e]
  unfold Model.Rounded.scaledDepthDifference Model.scaledDepthDifference
  split_ifs with hs
  · rfl
  · cases bid with
    | d1 v => rfl
    | d2 k rows =>
      cases ask with
      | d1 w => rfl
      | d2 k' rows' =>
        have hl : rows.length = rows'.length := by
          simp only [Arr.shape, List.cons.injEq, not_not] at hs
          exact hs.1
        have := hz (rows.map List.sum) (rows'.map List.sum) (by simpa using hl)
        simp only [Model.Rounded.sumAxis1, Model.sumAxis1, bind, Except.bind, pure, Except.pure, ex_nanmean, ex_sum]
          at this ⊢
        rw [this]
        have hm : ∀ rows : List (List XR), (rows.mapIdx fun _ row => row.sum) = rows.map List.sum := fun rows =>
          List.ext_getElem (by simp) (by simp)
        rw [hm, hm]

end
end Frds.Props
