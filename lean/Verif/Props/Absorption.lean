import Verif.Lemmas.Absorption

/-! Properties C10-C13 and C101-C105: the absorption ratio. -/
set_option linter.unusedSimpArgs false
namespace Frds.Props
noncomputable section
open Frds Frds.Model Frds.Spec Classical

variable {n T : ℕ}

/-! ### witnesses used by the examples -/

/-- an eigenvalue routine meeting the contract exists -/
def rootsEig : EigRoutine := fun _ M => M.charpoly.roots.toList

theorem rootsEig_contract : EigContract rootsEig := fun _ _ _ => Multiset.coe_toList _

/-- two assets, two days; only the first one moves -/
def demoRet : Fin 2 → Fin 2 → ℝ := ![![1, -1], ![0, 0]]

theorem demoRet_var : totalVar demoRet = 2 := by
  simp [totalVar, assetMean, demoRet, Fin.sum_univ_two]; norm_num

/-! ### C10 -/

/-- C10: for finite returns on at least two assets and two days with non-zero total variance and
`0 ≤ f ≤ 1`, a fresh object's `estimate(f)` is the sum of the `k` largest eigenvalues of the sample
covariance matrix over the total variance, `k` being `f·n` rounded half up; it lies in `[0,1]`. -/
theorem C10_value_and_range {eig : EigRoutine} (he : EigContract eig) (x : Fin n → Fin T → ℝ)
    (hn : 2 ≤ n) (hT : 2 ≤ T) (hv : totalVar x ≠ 0) {f : ℝ} (hf : 0 ≤ f) (hf1 : f ≤ 1) :
    ∃ (k : ℕ) (S v : ℝ), arFresh eig (retOf x) (.fin f) = .ok (.fin v)
      ∧ v = S / totalVar x ∧ IsTopSum (covEigs x) k S
      ∧ (k : ℝ) - 1 / 2 ≤ f * n ∧ f * n < k + 1 / 2 ∧ 0 ≤ v ∧ v ≤ 1 := by
  obtain ⟨k, hk, hkn, hr⟩ := fresh_value he x hn hT hv hf hf1
  have h0 : (0 : ℝ) ≤ f * n := by positivity
  have hpos : 0 < totalVar x := by
    refine lt_of_le_of_ne ?_ (Ne.symm hv)
    rw [← eigList_sum]; exact List.sum_nonneg (eigList_nonneg x hT)
  rw [roundHalfUp, if_pos h0, Int.floor_eq_iff] at hk
  refine ⟨k, _, _, hr, rfl, topSum_drop x hkn, ?_, ?_, ?_, ?_⟩
  · have := hk.1; push_cast at this; linarith
  · have := hk.2; push_cast at this; linarith
  · exact div_nonneg (sum_drop_nonneg (eigList_nonneg x hT) _) hpos.le
  · rw [div_le_one hpos, ← eigList_sum]
    simpa using sum_drop_antitone (eigList_nonneg x hT) (Nat.zero_le (n - k))

/-- C10: the sum of the `k` largest members is unique, so the value above is determined. -/
theorem C10_topSum_unique {s : Multiset ℝ} {k : ℕ} {v w : ℝ} (hv : IsTopSum s k v) (hw : IsTopSum s k w) :
    v = w := by
  have key : ∀ {t r : Multiset ℝ}, (∀ a ∈ t, ∀ b ∈ r, b ≤ a) → ∃ l m : List ℝ, (l : Multiset ℝ) = t ∧
      (m : Multiset ℝ) = r ∧ (l ++ m).Pairwise (fun a b => b ≤ a) := by
    intro t r h
    have hp : ∀ k : List ℝ, (k.mergeSort (fun a b => decide (b ≤ a))).Pairwise (fun a b => b ≤ a) := by
      intro k
      have := List.pairwise_mergeSort (le := fun a b : ℝ => decide (b ≤ a))
        (by intro a b c; simp; exact fun h1 h2 => le_trans h2 h1)
        (by intro a b; simp; exact le_total b a) k
      simpa using this
    refine ⟨t.toList.mergeSort (fun a b => decide (b ≤ a)), r.toList.mergeSort (fun a b => decide (b ≤ a)),
      ?_, ?_, ?_⟩
    · rw [Multiset.coe_eq_coe.2 (List.mergeSort_perm _ _), Multiset.coe_toList]
    · rw [Multiset.coe_eq_coe.2 (List.mergeSort_perm _ _), Multiset.coe_toList]
    · rw [List.pairwise_append]
      refine ⟨hp _, hp _, ?_⟩
      intro a ha b hb
      exact h a (by simpa using ha) b (by simpa using hb)
  obtain ⟨t, r, h1, h2, h3, rfl⟩ := hv
  obtain ⟨t', r', h1', h2', h3', rfl⟩ := hw
  obtain ⟨l, m, rfl, rfl, hs⟩ := key h3
  obtain ⟨l', m', rfl, rfl, hs'⟩ := key h3'
  have hperm : (l ++ m).Perm (l' ++ m') := by
    rw [← Multiset.coe_eq_coe, ← Multiset.coe_add, ← Multiset.coe_add, h1, h1']
  have heq := List.Perm.eq_of_pairwise (fun a b _ _ h h' => le_antisymm h' h) hs hs' hperm
  have hl : l.length = l'.length := by
    rw [Multiset.coe_card] at h2 h2'; omega
  rw [(List.append_inj heq hl).1]

example : ∃ v, IsTopSum {3, 1, 2} 2 v :=
  ⟨5, ([3, 2] : List ℝ), ([1] : List ℝ), Multiset.coe_eq_coe.2 (by simpa using List.Perm.swap 1 2 []), by simp, by simp,
    by norm_num⟩

example := C10_value_and_range rootsEig_contract demoRet le_rfl le_rfl (by rw [demoRet_var]; norm_num)
  (f := 1 / 2) (by norm_num) (by norm_num)

/-! ### C11 -/

/-- C11: `estimate` is non-decreasing in the fraction on `[0,1]`. -/
theorem C11_monotone {eig : EigRoutine} (he : EigContract eig) (x : Fin n → Fin T → ℝ)
    (hn : 2 ≤ n) (hT : 2 ≤ T) (hv : totalVar x ≠ 0) {f g : ℝ} (hf : 0 ≤ f) (hfg : f ≤ g) (hg : g ≤ 1) :
    ∃ v w : ℝ, arFresh eig (retOf x) (.fin f) = .ok (.fin v)
      ∧ arFresh eig (retOf x) (.fin g) = .ok (.fin w) ∧ v ≤ w := by
  obtain ⟨k, hk, hkn, hr⟩ := fresh_value he x hn hT hv hf (hfg.trans hg)
  obtain ⟨m, hm, hmn, hr'⟩ := fresh_value he x hn hT hv (hf.trans hfg) hg
  have hpos : 0 ≤ totalVar x := by
    rw [← eigList_sum]; exact List.sum_nonneg (eigList_nonneg x hT)
  have hkm : k ≤ m := by
    have h : roundHalfUp (f * n) ≤ roundHalfUp (g * n) := roundHalfUp_mono (by positivity) (by
      have : (0 : ℝ) ≤ n := by positivity
      nlinarith)
    omega
  exact ⟨_, _, hr, hr', div_le_div_of_nonneg_right
    (sum_drop_antitone (eigList_nonneg x hT) (by omega)) hpos⟩

/-- C11: `estimate(0) = 0` and `estimate(1) = 1`. -/
theorem C11_endpoints {eig : EigRoutine} (he : EigContract eig) (x : Fin n → Fin T → ℝ)
    (hn : 2 ≤ n) (hT : 2 ≤ T) (hv : totalVar x ≠ 0) :
    arFresh eig (retOf x) (.fin 0) = .ok (.fin 0) ∧ arFresh eig (retOf x) (.fin 1) = .ok (.fin 1) := by
  constructor
  · obtain ⟨k, hk, hkn, hr⟩ := fresh_value he x hn hT hv le_rfl zero_le_one
    rw [zero_mul, show (0 : ℝ) = ((0 : ℕ) : ℝ) by simp, roundHalfUp_nat] at hk
    have : k = 0 := by omega
    subst this
    have hd : (eigList x).drop n = [] := List.drop_eq_nil_of_le (by rw [eigList_length])
    rw [hr, Nat.sub_zero, hd]; simp
  · obtain ⟨k, hk, hkn, hr⟩ := fresh_value he x hn hT hv zero_le_one le_rfl
    rw [one_mul, roundHalfUp_nat] at hk
    have : k = n := by omega
    subst this
    rw [hr, Nat.sub_self, List.drop_zero, eigList_sum, div_self hv]

example := C11_monotone rootsEig_contract demoRet le_rfl le_rfl (by rw [demoRet_var]; norm_num)
  (f := 1 / 4) (g := 1 / 2) (by norm_num) (by norm_num) (by norm_num)

/-! ### C12 -/

/-- relation between the object and the specification's state: what is cached belongs to `base` -/
def ArInv (eig : EigRoutine) (o : ArObj) (base : Option Returns) : Prop :=
  o.cov = base.map npCovMat ∧
  ∀ e, o.eig = some e → ∃ b, base = some b ∧ npEigvals eig (npCovMat b) = .ok e

theorem ArInv.readCov {eig : EigRoutine} {o : ArObj} {base : Option Returns} (h : ArInv eig o base) :
    o.readCov.2 = npCovMat (base.getD o.returns) ∧
    ArInv eig o.readCov.1 (some (base.getD o.returns)) ∧ o.readCov.1.returns = o.returns := by
  obtain ⟨h1, h2⟩ := h
  unfold ArObj.readCov
  cases base with
  | some b =>
    simp only [Option.map_some] at h1
    rw [h1]
    exact ⟨rfl, ⟨h1, h2⟩, rfl⟩
  | none =>
    simp only [Option.map_none] at h1
    rw [h1]
    refine ⟨rfl, ⟨rfl, ?_⟩, rfl⟩
    intro e hee
    obtain ⟨b, hb, -⟩ := h2 e hee
    cases hb

theorem ArInv.readEig {eig : EigRoutine} {o : ArObj} {base : Option Returns} (h : ArInv eig o base) :
    (o.readEig eig).2 = npEigvals eig (npCovMat (base.getD o.returns)) ∧
    ((o.readEig eig).1.returns = o.returns) ∧
    ArInv eig (o.readEig eig).1 (some (base.getD o.returns)) := by
  obtain ⟨c1, c2, c3⟩ := h.readCov
  unfold ArObj.readEig
  cases hoe : o.eig with
  | some e =>
    obtain ⟨b, rfl, hb⟩ := h.2 e hoe
    exact ⟨hb.symm, rfl, h⟩
  | none =>
    dsimp only
    rw [c1]
    cases hv : npEigvals eig (npCovMat (base.getD o.returns)) with
    | error x => exact ⟨rfl, c3, c2⟩
    | ok e =>
      refine ⟨rfl, c3, c2.1, ?_⟩
      intro e' he'
      refine ⟨_, rfl, ?_⟩
      rw [hv]; exact congrArg _ (Option.some.inj he')

theorem ArInv.estimate {eig : EigRoutine} {o : ArObj} {base : Option Returns} (h : ArInv eig o base) (f : XR) :
    (o.estimate eig f).2 = arMixed eig (base.getD o.returns) o.returns.n f ∧
    ((o.estimate eig f).1.returns = o.returns) ∧
    ArInv eig (o.estimate eig f).1 (some (base.getD o.returns)) := by
  refine ⟨estimate_eq_mixed eig o f _ ?_ ?_, ?_⟩
  · rw [h.1]; cases base <;> rfl
  · intro e hee
    obtain ⟨b, rfl, hb⟩ := h.2 e hee
    exact hb
  · obtain ⟨e1, e2, e3⟩ := h.readEig
    unfold ArObj.estimate
    dsimp only
    cases hr : o.readEig eig with
    | mk o1 res =>
      rw [hr] at e1 e2 e3
      cases res with
      | error x => exact ⟨e2, e3⟩
      | ok e =>
        dsimp only
        cases decimalInt (f * .fin (o.returns.n : ℝ)) with
        | error x => exact ⟨e2, e3⟩
        | ok k =>
          dsimp only
          obtain ⟨_, d2, d3⟩ := e3.readCov
          exact ⟨d3.trans e2, d2⟩

theorem run_eq_answers (eig : EigRoutine) (ops : List ArOp) : ∀ (o : ArObj) (base : Option Returns),
    ArInv eig o base → o.run eig ops = arAnswers eig base o.returns ops := by
  induction ops with
  | nil => intro o base _; cases base <;> rfl
  | cons op ops ih =>
    intro o base h
    cases op with
    | estimate f =>
      obtain ⟨h1, h2, h3⟩ := h.estimate f
      rw [ArObj.run, ArObj.step, arAnswers, h1, ← h2]
      rw [← h2] at h3
      rw [ih _ _ h3]
    | readCov =>
      obtain ⟨h1, h3, h2⟩ := h.readCov
      rw [ArObj.run, ArObj.step, arAnswers, h1, ← h2]
      rw [← h2] at h3
      rw [ih _ _ h3]
    | readEig =>
      obtain ⟨h1, h2, h3⟩ := h.readEig
      rw [ArObj.run, ArObj.step, arAnswers, h1, ← h2]
      rw [← h2] at h3
      rw [ih _ _ h3]
    | setReturns r =>
      rw [ArObj.run, ArObj.step, arAnswers]
      exact congrArg _ (ih { o with returns := r } base h)

/-- the client action does not reassign `asset_returns` -/
def ArOp.IsRead : ArOp → Prop
  | .setReturns _ => False
  | _ => True

/-- what a fresh object answers to one action -/
def freshAnswer (eig : EigRoutine) (r : Returns) (op : ArOp) : ArOut := ((ArObj.new r).step eig op).2

/-- C12: however long the session and whatever the order of `estimate`, `eigvals` and
`asset_covariance` reads, as long as `asset_returns` is not reassigned every answer is the one a
fresh object gives. -/
theorem C12_history_independent (eig : EigRoutine) (r : Returns) (ops : List ArOp)
    (h : ∀ op ∈ ops, ArOp.IsRead op) :
    (ArObj.new r).run eig ops = ops.map (freshAnswer eig r) := by
  have hinv : ∀ r, ArInv eig (ArObj.new r) none := fun r => ⟨rfl, by intro e h; cases h⟩
  have hfresh : ∀ op, [freshAnswer eig r op] = arAnswers eig none r [op] := by
    intro op
    rw [← show (ArObj.new r).returns = r from rfl, ← run_eq_answers eig [op] _ none (hinv r)]; rfl
  rw [run_eq_answers eig ops _ none (hinv r)]
  show arAnswers eig none r ops = _
  have aux : ∀ (base : Option Returns), base.getD r = r → arAnswers eig base r ops
      = ops.map (freshAnswer eig r) := by
    clear hinv
    induction ops with
    | nil => intro base _; cases base <;> rfl
    | cons op ops ih =>
      intro base hb
      have h1 := hfresh op
      have ih' := ih (fun o ho => h o (List.mem_cons_of_mem _ ho)) (some r) rfl
      cases op with
      | estimate f =>
        rw [arAnswers] at h1 ⊢
        rw [hb, List.map_cons, ih', (List.cons.inj h1).1]; rfl
      | readCov =>
        rw [arAnswers] at h1 ⊢
        rw [hb, List.map_cons, ih', (List.cons.inj h1).1]; rfl
      | readEig =>
        rw [arAnswers] at h1 ⊢
        rw [hb, List.map_cons, ih', (List.cons.inj h1).1]; rfl
      | setReturns r' => exact absurd (h _ List.mem_cons_self) (by simp [ArOp.IsRead])
  exact aux none rfl

/-- C12, reassignment: in every session, with any number of reassignments of `asset_returns`, each
answer is computed from the covariance of the returns held when the object was first read, while
the number of eigenvalues summed uses the asset count of the returns held now. -/
theorem C12_stale_after_reassignment (eig : EigRoutine) (r : Returns) (ops : List ArOp) :
    (ArObj.new r).run eig ops = arAnswers eig none r ops :=
  run_eq_answers eig ops _ none ⟨rfl, by intro e h; cases h⟩

/-- C12, the two-step instance: read once, reassign, estimate. -/
theorem C12_stale_instance (eig : EigRoutine) (r r' : Returns) (f g : XR) :
    (ArObj.new r).run eig [.estimate f, .setReturns r', .estimate g]
      = [.value (arFresh eig r f), .unit, .value (arMixed eig r r'.n g)] := by
  rw [C12_stale_after_reassignment]
  simp only [arAnswers, Option.getD_none, Option.getD_some, arFresh_eq]

example : ∀ op ∈ [ArOp.readCov, .estimate (.fin 1), .readEig], ArOp.IsRead op := by
  simp [ArOp.IsRead]

/-! ### C13 -/

/-- C13: a fraction above one never raises. With `k` = `f·n` rounded half up, the result is `1` when
`k = n`, and when `k > n` it is the share of the `min (k - n) n` largest eigenvalues only. -/
theorem C13_above_one {eig : EigRoutine} (he : EigContract eig) (x : Fin n → Fin T → ℝ)
    (hn : 2 ≤ n) (hT : 2 ≤ T) (hv : totalVar x ≠ 0) {f : ℝ} (hf : 1 < f) :
    ∃ (k : ℕ), n ≤ k ∧ (k : ℝ) - 1 / 2 ≤ f * n ∧ f * n < k + 1 / 2 ∧
      (k = n → arFresh eig (retOf x) (.fin f) = .ok (.fin 1)) ∧
      (n < k → ∃ S, IsTopSum (covEigs x) (min (k - n) n) S ∧
        arFresh eig (retOf x) (.fin f) = .ok (.fin (S / totalVar x))) := by
  have hn0 : (0 : ℝ) < n := by have : 0 < n := by omega
                               exact_mod_cast this
  have h0 : (0 : ℝ) ≤ f * n := by nlinarith
  obtain ⟨k, hk⟩ := Int.eq_ofNat_of_zero_le (roundHalfUp_nonneg h0)
  have hnk : n ≤ k := by
    have := roundHalfUp_mono hn0.le (show (n : ℝ) ≤ f * n from by nlinarith)
    rw [roundHalfUp_nat] at this; omega
  have hk' := hk
  rw [roundHalfUp, if_pos h0, Int.floor_eq_iff] at hk'
  refine ⟨k, hnk, ?_, ?_, ?_, ?_⟩
  · have := hk'.1; push_cast at this; linarith
  · have := hk'.2; push_cast at this; linarith
  · intro h
    rw [arFresh_eq, show (retOf x).n = n from rfl, arMixed_retOf he x (by omega) hT, hk, h]
    have := slice_nat (eigList x) n (by rw [eigList_length])
    rw [eigList_length] at this
    rw [this, Nat.sub_self, List.drop_zero, eigList_sum, XR.fin_div _ hv, div_self hv]
  · intro h
    refine ⟨_, topSum_drop x (min_le_right (k - n) n), ?_⟩
    rw [arFresh_eq, show (retOf x).n = n from rfl, arMixed_retOf he x (by omega) hT, hk, XR.fin_div _ hv]
    unfold pySliceFrom
    rw [if_pos (by omega), eigList_length]
    congr 6
    omega

/-- C13: so for a non-singular covariance matrix, a fraction above one that rounds strictly between
`n` and `2n` gives a result *below* `estimate(1) = 1`. -/
theorem C13_wraps_below_one {eig : EigRoutine} (he : EigContract eig) (x : Fin n → Fin T → ℝ)
    (hn : 2 ≤ n) (hT : 2 ≤ T) (hdet : (covMatrix x).det ≠ 0) {f : ℝ} (hf : (n : ℝ) + 1 / 2 ≤ f * n)
    (hf2 : f * n < 2 * n - 1 / 2) :
    ∃ v : ℝ, arFresh eig (retOf x) (.fin f) = .ok (.fin v) ∧ 0 < v ∧ v < 1 ∧
      arFresh eig (retOf x) (.fin 1) = .ok (.fin 1) := by
  have hn0 : (0 : ℝ) < n := by have : 0 < n := by omega
                               exact_mod_cast this
  have hposE : ∀ a ∈ eigList x, 0 < a := by
    intro a ha
    have ha' : a ∈ covEigs x := by rw [← eigList_coe]; exact ha
    rw [covEigs_eq] at ha'
    obtain ⟨i, -, rfl⟩ := Multiset.mem_map.1 ha'
    refine lt_of_le_of_ne ((covMatrix_psd x hT).eigenvalues_nonneg i) ?_
    intro h0
    apply hdet
    rw [(covMatrix_herm x).det_eq_prod_eigenvalues]
    exact Finset.prod_eq_zero (Finset.mem_univ i) (by simp [← h0])
  have hsum : ∀ l : List ℝ, (∀ a ∈ l, 0 < a) → l ≠ [] → 0 < l.sum := fun l h hl =>
    List.sum_pos l h hl
  have hL : eigList x ≠ [] := by
    intro h; have := eigList_length x; rw [h] at this; simp at this; omega
  have hpos : 0 < totalVar x := by rw [← eigList_sum]; exact hsum _ hposE hL
  obtain ⟨k, -, hk1, hk2, -, hk4⟩ := C13_above_one he x hn hT hpos.ne' (f := f) (by
    by_contra h; push Not at h; nlinarith)
  have hkn : n < k := by
    have : (n : ℝ) < k := by linarith
    exact_mod_cast this
  have hk2n : k < 2 * n := by
    have : (k : ℝ) < 2 * n := by linarith
    exact_mod_cast this
  obtain ⟨S, hS, hr⟩ := hk4 hkn
  have hmin : min (k - n) n = k - n := by omega
  rw [hmin] at hS
  have hS' := C10_topSum_unique hS (topSum_drop x (show k - n ≤ n by omega))
  have hne : (eigList x).drop (n - (k - n)) ≠ [] := by
    intro h; have := congrArg List.length h; simp [eigList_length] at this; omega
  have hne' : (eigList x).take (n - (k - n)) ≠ [] := by
    intro h; have := congrArg List.length h; simp [eigList_length] at this; omega
  have h1 := hsum _ (fun a ha => hposE a (List.mem_of_mem_drop ha)) hne
  have h2 := hsum _ (fun a ha => hposE a (List.mem_of_mem_take ha)) hne'
  have h3 := List.sum_take_add_sum_drop (eigList x) (n - (k - n))
  rw [eigList_sum] at h3
  refine ⟨_, hr, ?_, ?_, (C11_endpoints he x hn hT hpos.ne').2⟩
  · rw [hS']; exact div_pos h1 hpos
  · rw [hS', div_lt_one hpos]; linarith

/-- C13: a negative fraction with `f·n ≤ -1/2` gives `0`, without an error. -/
theorem C13_negative {eig : EigRoutine} (he : EigContract eig) (x : Fin n → Fin T → ℝ)
    (hn : 2 ≤ n) (hT : 2 ≤ T) (hv : totalVar x ≠ 0) {f : ℝ} (hf : f * n ≤ -1 / 2) :
    arFresh eig (retOf x) (.fin f) = .ok (.fin 0) := by
  have hk : roundHalfUp (f * n) < 0 := by
    rw [roundHalfUp, if_neg (by linarith)]
    have : 1 ≤ ⌊-(f * n) + 1 / 2⌋ := Int.le_floor.2 (by push_cast; linarith)
    omega
  rw [arFresh_eq, show (retOf x).n = n from rfl, arMixed_retOf he x (by omega) hT, XR.fin_div _ hv]
  have : pySliceFrom (eigList x) ((n : ℤ) - roundHalfUp (f * n)) = [] := by
    unfold pySliceFrom
    rw [if_neg (by omega)]
    exact List.drop_eq_nil_of_le (by rw [eigList_length]; omega)
  rw [this]; simp

/-- three days, two assets, non-singular covariance -/
def demoRet3 : Fin 2 → Fin 3 → ℝ := ![![1, -1, 0], ![1, 1, -2]]

example := C13_wraps_below_one rootsEig_contract demoRet3 le_rfl (by norm_num) (by
    rw [Matrix.det_fin_two]
    simp [covMatrix, assetMean, demoRet3, Fin.sum_univ_three]; norm_num)
  (f := 1.5) (by norm_num) (by norm_num)

example := C13_negative rootsEig_contract demoRet le_rfl le_rfl (by rw [demoRet_var]; norm_num)
  (f := -1) (by norm_num)

/-! ### C101 -/

/-- C101: the `k` largest eigenvalues carry at least their proportional share: `estimate(f) ≥ k/n`. -/
theorem C101_at_least_proportional {eig : EigRoutine} (he : EigContract eig) (x : Fin n → Fin T → ℝ)
    (hn : 2 ≤ n) (hT : 2 ≤ T) (hv : totalVar x ≠ 0) {f : ℝ} {k : ℕ}
    (hk1 : (k : ℝ) - 1 / 2 ≤ f * n) (hk2 : f * n < k + 1 / 2) (hf : 0 ≤ f) (hf1 : f ≤ 1) :
    ∃ v : ℝ, arFresh eig (retOf x) (.fin f) = .ok (.fin v) ∧ (k : ℝ) / n ≤ v := by
  have hn0 : (0 : ℝ) < n := by have : 0 < n := by omega
                               exact_mod_cast this
  obtain ⟨k', hk, hkn, hr⟩ := fresh_value he x hn hT hv hf hf1
  have h0 : (0 : ℝ) ≤ f * n := by positivity
  have : k' = k := by
    have h : roundHalfUp (f * n) = k := by
      rw [roundHalfUp, if_pos h0, Int.floor_eq_iff]; push_cast; constructor <;> linarith
    omega
  subst this
  have hpos : 0 < totalVar x := by
    refine lt_of_le_of_ne ?_ (Ne.symm hv)
    rw [← eigList_sum]; exact List.sum_nonneg (eigList_nonneg x hT)
  refine ⟨_, hr, ?_⟩
  have h3 := List.sum_take_add_sum_drop (eigList x) (n - k')
  rw [eigList_sum] at h3
  rw [div_le_div_iff₀ hn0 hpos]
  -- a level `c` separating the two parts
  have hp := eigList_pairwise x
  rw [← List.take_append_drop (n - k') (eigList x), List.pairwise_append] at hp
  obtain ⟨c, hc1, hc2⟩ : ∃ c : ℝ, (∀ a ∈ (eigList x).take (n - k'), a ≤ c) ∧
      ∀ b ∈ (eigList x).drop (n - k'), c ≤ b := by
    cases hd : (eigList x).drop (n - k') with
    | nil =>
      refine ⟨((eigList x).take (n - k')).sum, fun a ha => ?_, by simp⟩
      exact List.single_le_sum (fun b hb => eigList_nonneg x hT b (List.mem_of_mem_take hb)) a ha
    | cons b bs =>
      rw [hd] at hp
      refine ⟨b, fun a ha => hp.2.2 a ha b List.mem_cons_self, ?_⟩
      intro b' hb'
      rcases List.mem_cons.1 hb' with rfl | h
      · exact le_rfl
      · exact (List.pairwise_cons.1 hp.2.1).1 b' h
  have e1 := List.sum_le_card_nsmul _ c hc1
  have e2 := List.card_nsmul_le_sum _ c hc2
  rw [nsmul_eq_mul, List.length_take, eigList_length, min_eq_left (by omega), Nat.cast_sub hkn] at e1
  rw [nsmul_eq_mul, List.length_drop, eigList_length, show n - (n - k') = k' by omega] at e2
  have hk0 : (0 : ℝ) ≤ k' := by positivity
  have hkn' : (k' : ℝ) ≤ n := by exact_mod_cast hkn
  nlinarith

example := C101_at_least_proportional rootsEig_contract demoRet le_rfl le_rfl
  (by rw [demoRet_var]; norm_num) (f := 1 / 2) (k := 1) (by norm_num) (by norm_num) (by norm_num) (by norm_num)

/-! ### C102 -/

theorem arMixed_congr {eig : EigRoutine} (he : EigContract eig) {x y : Fin n → Fin T → ℝ}
    (hT : 2 ≤ T) (h : covEigs x = covEigs y) (f : XR) :
    arFresh eig (retOf x) f = arFresh eig (retOf y) f := by
  have hL : eigList x = eigList y := by rw [eigList, eigList, h]
  have hV : totalVar x = totalVar y := by rw [← covEigs_sum, ← covEigs_sum, h]
  rw [arFresh_eq, arFresh_eq, show (retOf x).n = n from rfl, show (retOf y).n = n from rfl]
  by_cases hn : n = 1
  · have h1 : ∀ z : Fin n → Fin T → ℝ, npEigvals eig (npCovMat (retOf z)) = .error .linAlgError := by
      intro z
      unfold npEigvals
      rw [if_pos (show (npCovMat (retOf z)).n = 1 from hn)]
    unfold arMixed
    rw [h1, h1]; rfl
  · cases f with
    | fin f => rw [arMixed_retOf he x hn hT, arMixed_retOf he y hn hT, hL, hV]
    | nan => unfold arMixed; rw [npEig_retOf x hn hT, npEig_retOf y hn hT]; rfl
    | pinf =>
      unfold arMixed
      rw [npEig_retOf x hn hT, npEig_retOf y hn hT]
      simp only [bind, Except.bind]
      cases hd : decimalInt (XR.pinf * XR.fin (n : ℝ)) with
      | error e => rfl
      | ok k =>
        simp only [pure, Except.pure]
        rw [eig_sorted he, eig_sorted he, hL, npTrace_retOf x hT, npTrace_retOf y hT, trace_eq_totalVar,
          trace_eq_totalVar, hV]
    | ninf =>
      unfold arMixed
      rw [npEig_retOf x hn hT, npEig_retOf y hn hT]
      simp only [bind, Except.bind]
      cases hd : decimalInt (XR.ninf * XR.fin (n : ℝ)) with
      | error e => rfl
      | ok k =>
        simp only [pure, Except.pure]
        rw [eig_sorted he, eig_sorted he, hL, npTrace_retOf x hT, npTrace_retOf y hT, trace_eq_totalVar,
          trace_eq_totalVar, hV]

theorem assetMean_shift (x : Fin n → Fin T → ℝ) (hT : 2 ≤ T) (c : Fin n → ℝ) (i : Fin n) :
    assetMean (fun i t => x i t + c i) i = assetMean x i + c i := by
  have hT0 : (T : ℝ) ≠ 0 := by
    have : T ≠ 0 := by omega
    exact_mod_cast this
  rw [assetMean, assetMean, Finset.sum_add_distrib, Finset.sum_const, Finset.card_univ, Fintype.card_fin,
    nsmul_eq_mul, add_div, mul_div_cancel_left₀ _ hT0]

/-- C102: adding a constant to every return of an asset (a different one per asset) changes nothing. -/
theorem C102_shift_invariant {eig : EigRoutine} (he : EigContract eig) (x : Fin n → Fin T → ℝ)
    (hT : 2 ≤ T) (c : Fin n → ℝ) (f : XR) :
    arFresh eig (retOf fun i t => x i t + c i) f = arFresh eig (retOf x) f := by
  refine arMixed_congr he hT ?_ f
  rw [covEigs, covEigs]
  congr 2
  ext i j
  simp only [covMatrix, Matrix.of_apply, assetMean_shift x hT c]
  congr 1
  exact Finset.sum_congr rfl fun t _ => by ring

/-- C102: the order of the assets and the order of the days do not matter. -/
theorem C102_permutation_invariant {eig : EigRoutine} (he : EigContract eig) (x : Fin n → Fin T → ℝ)
    (hT : 2 ≤ T) (σ : Equiv.Perm (Fin n)) (τ : Equiv.Perm (Fin T)) (f : XR) :
    arFresh eig (retOf fun i t => x (σ i) (τ t)) f = arFresh eig (retOf x) f := by
  refine arMixed_congr he hT ?_ f
  rw [covEigs, covEigs]
  have hm : ∀ i, assetMean (fun i t => x (σ i) (τ t)) i = assetMean x (σ i) := by
    intro i
    rw [assetMean, assetMean]
    congr 1
    exact Equiv.sum_comp τ (fun t => x (σ i) t)
  have : covMatrix (fun i t => x (σ i) (τ t)) = Matrix.reindex σ.symm σ.symm (covMatrix x) := by
    ext i j
    simp only [covMatrix, Matrix.of_apply, Matrix.reindex_apply, Matrix.submatrix_apply, Equiv.symm_symm, hm]
    congr 1
    exact Equiv.sum_comp τ (fun t => (x (σ i) t - assetMean x (σ i)) * (x (σ j) t - assetMean x (σ j)))
  rw [this, Matrix.charpoly_reindex]

open Polynomial in
theorem roots_smul {M : Matrix (Fin n) (Fin n) ℝ} (hM : M.IsHermitian) (c : ℝ) :
    (c • M).charpoly.roots = M.charpoly.roots.map (fun a => c * a) := by
  have h1 : (c • M).charpoly = ∏ i, (X - C (c * hM.eigenvalues i)) := by
    conv_lhs => rw [hM.spectral_theorem, Unitary.conjStarAlgAut_apply, ← Matrix.smul_mul,
      ← Matrix.mul_smul, Matrix.charpoly_mul_comm, ← mul_assoc]
    rw [Unitary.coe_star_mul_self, one_mul, ← Matrix.diagonal_smul, Matrix.charpoly_diagonal]
    rfl
  rw [h1, Polynomial.roots_prod, hM.roots_charpoly_eq_eigenvalues, Multiset.map_map]
  · simp only [Polynomial.roots_X_sub_C, Multiset.bind_singleton]; rfl
  · exact Finset.prod_ne_zero_iff.2 fun i _ => Polynomial.X_sub_C_ne_zero _

theorem covEigs_scale (x : Fin n → Fin T → ℝ) (c : ℝ) :
    covEigs (fun i t => c * x i t) = (covEigs x).map (fun a => c ^ 2 * a) := by
  rw [covEigs, covEigs, ← roots_smul (covMatrix_herm x)]
  congr 2
  have hm : ∀ i, assetMean (fun i t => c * x i t) i = c * assetMean x i := by
    intro i; rw [assetMean, assetMean, ← Finset.mul_sum, mul_div_assoc]
  ext i j
  simp only [covMatrix, Matrix.of_apply, Matrix.smul_apply, smul_eq_mul, hm]
  rw [← mul_div_assoc, Finset.mul_sum]
  congr 1
  exact Finset.sum_congr rfl fun t _ => by ring

theorem pySliceFrom_map {α β} (g : α → β) (l : List α) (s : ℤ) :
    pySliceFrom (l.map g) s = (pySliceFrom l s).map g := by
  unfold pySliceFrom
  rw [List.length_map, List.map_drop]

theorem eigList_scale (x : Fin n → Fin T → ℝ) (c : ℝ) :
    eigList (fun i t => c * x i t) = (eigList x).map (fun a => c ^ 2 * a) := by
  refine List.Perm.eq_of_pairwise (le := (· ≤ ·)) (fun a b _ _ => le_antisymm) (eigList_pairwise _) ?_ ?_
  · refine (eigList_pairwise x).map _ fun a b h => ?_
    exact mul_le_mul_of_nonneg_left h (by positivity)
  · rw [← Multiset.coe_eq_coe, eigList_coe, covEigs_scale, ← Multiset.map_coe, eigList_coe]

/-- C102: multiplying all returns by one non-zero number (for instance percent instead of decimals,
or the other sign) changes nothing. -/
theorem C102_scale_invariant {eig : EigRoutine} (he : EigContract eig) (x : Fin n → Fin T → ℝ)
    (hn : 2 ≤ n) (hT : 2 ≤ T) {c : ℝ} (hc : c ≠ 0) (f : ℝ) :
    arFresh eig (retOf fun i t => c * x i t) (.fin f) = arFresh eig (retOf x) (.fin f) := by
  have hc2 : c ^ 2 ≠ 0 := pow_ne_zero 2 hc
  have hV : totalVar (fun i t => c * x i t) = c ^ 2 * totalVar x := by
    rw [← eigList_sum, eigList_scale, List.sum_map_mul_left, List.map_id', eigList_sum]
  rw [arFresh_eq, arFresh_eq, show (retOf fun i t => c * x i t).n = n from rfl,
    show (retOf x).n = n from rfl, arMixed_retOf he _ (by omega) hT, arMixed_retOf he _ (by omega) hT,
    eigList_scale, pySliceFrom_map, List.sum_map_mul_left, List.map_id', hV]
  by_cases h0 : totalVar x = 0
  · rw [h0, mul_zero, XR.fin_div_zero, XR.fin_div_zero]
    unfold XR.infSign
    have : 0 < c ^ 2 := by positivity
    simp only [mul_pos_iff_of_pos_left this, mul_neg_iff, this, not_lt.2 this.le, true_and, false_and, or_false]
  · rw [XR.fin_div _ h0, XR.fin_div _ (mul_ne_zero hc2 h0), mul_div_mul_left _ _ hc2]

/-! ### C103 -/

/-- C103: when one factor drives every asset (`x i t = a i + b i * g t`), a single eigenvector absorbs
everything: every `estimate(f)` with `1/2 ≤ f·n`, `f ≤ 1` equals one. -/
theorem C103_one_factor {eig : EigRoutine} (he : EigContract eig) (a b : Fin n → ℝ) (g : Fin T → ℝ)
    (hn : 2 ≤ n) (hT : 2 ≤ T) (hv : totalVar (fun i t => a i + b i * g t) ≠ 0) {f : ℝ}
    (hf : 1 / 2 ≤ f * n) (hf1 : f ≤ 1) :
    arFresh eig (retOf fun i t => a i + b i * g t) (.fin f) = .ok (.fin 1) := by
  have hn0 : (0 : ℝ) < n := by have : 0 < n := by omega
                               exact_mod_cast this
  have hT0 : (T : ℝ) ≠ 0 := by
    have : T ≠ 0 := by omega
    exact_mod_cast this
  set x : Fin n → Fin T → ℝ := fun i t => a i + b i * g t with hx
  have hf0 : 0 ≤ f := by
    by_contra h; push Not at h; nlinarith
  obtain ⟨k, hk, hkn, hr⟩ := fresh_value he x hn hT hv hf0 hf1
  have hk1 : 1 ≤ k := by
    have : (1 : ℤ) ≤ roundHalfUp (f * n) := by
      rw [roundHalfUp, if_pos (by linarith)]; exact Int.le_floor.2 (by push_cast; linarith)
    omega
  rw [hr]
  -- the covariance matrix has rank at most one
  have hmean : ∀ i, assetMean x i = a i + b i * ((∑ t, g t) / T) := by
    intro i
    rw [assetMean, hx]
    simp only
    rw [Finset.sum_add_distrib, Finset.sum_const, Finset.card_univ, Fintype.card_fin, nsmul_eq_mul,
      add_div, mul_div_cancel_left₀ _ hT0, ← Finset.mul_sum, mul_div_assoc]
  have hcov : covMatrix x = Matrix.vecMulVec b
      (((∑ t, (g t - (∑ t, g t) / T) ^ 2) / ((T : ℝ) - 1)) • b) := by
    ext i j
    simp only [covMatrix, Matrix.of_apply, Matrix.vecMulVec_apply, Pi.smul_apply, smul_eq_mul, hmean]
    rw [show ∀ S D : ℝ, b i * (S / D * b j) = (b i * b j) * S / D from fun S D => by ring, Finset.mul_sum]
    congr 1
    exact Finset.sum_congr rfl fun t _ => by rw [hx]; ring
  have hrank : (covMatrix x).rank ≤ 1 := by rw [hcov]; exact Matrix.rank_vecMulVec_le _ _
  have hcard : Multiset.card ((covEigs x).filter (· ≠ 0)) ≤ 1 := by
    rw [(covMatrix_herm x).rank_eq_card_non_zero_eigs, Fintype.card_subtype] at hrank
    rw [covEigs_eq, Multiset.filter_map, Multiset.card_map]
    exact hrank
  have hzero : ∀ y ∈ (eigList x).take (n - k), y = 0 := by
    intro y hy
    by_contra hy0
    have hypos : 0 < y := lt_of_le_of_ne (eigList_nonneg x hT y (List.mem_of_mem_take hy)) (Ne.symm hy0)
    have hp := eigList_pairwise x
    rw [← List.take_append_drop (n - k) (eigList x), List.pairwise_append] at hp
    have hdne : (eigList x).drop (n - k) ≠ [] := by
      intro h; have := congrArg List.length h; simp [eigList_length] at this; omega
    obtain ⟨z, hz⟩ := List.exists_mem_of_ne_nil _ hdne
    have hz0 : 0 < z := hypos.trans_le (hp.2.2 y hy z hz)
    rw [← eigList_coe, ← List.take_append_drop (n - k) (eigList x), ← Multiset.coe_add,
      Multiset.filter_add, Multiset.card_add] at hcard
    have c1 : 0 < Multiset.card (Multiset.filter (· ≠ 0) ((eigList x).take (n - k) : Multiset ℝ)) :=
      Multiset.card_pos_iff_exists_mem.2 ⟨y, Multiset.mem_filter.2 ⟨hy, hy0⟩⟩
    have c2 : 0 < Multiset.card (Multiset.filter (· ≠ 0) ((eigList x).drop (n - k) : Multiset ℝ)) :=
      Multiset.card_pos_iff_exists_mem.2 ⟨z, Multiset.mem_filter.2 ⟨hz, hz0.ne'⟩⟩
    omega
  have h3 := List.sum_take_add_sum_drop (eigList x) (n - k)
  rw [eigList_sum, List.sum_eq_zero hzero, zero_add] at h3
  rw [h3, div_self hv]

example := C103_one_factor rootsEig_contract ![1, 0] ![1, 2] ![1, -1] le_rfl le_rfl
  (by simp [totalVar, assetMean, Fin.sum_univ_two]; norm_num) (f := 1 / 4) (by norm_num) (by norm_num)

/-! ### C104 -/

/-- C104: uncorrelated assets of equal variance absorb nothing beyond proportion: `estimate(f) = k/n`,
so the lower bound of C101 is attained. -/
theorem C104_uncorrelated {eig : EigRoutine} (he : EigContract eig) (x : Fin n → Fin T → ℝ)
    (hn : 2 ≤ n) (hT : 2 ≤ T) {s : ℝ} (hs : s ≠ 0) (hcov : covMatrix x = s • (1 : Matrix (Fin n) (Fin n) ℝ))
    {f : ℝ} {k : ℕ} (hk1 : (k : ℝ) - 1 / 2 ≤ f * n) (hk2 : f * n < k + 1 / 2) (hf : 0 ≤ f) (hf1 : f ≤ 1) :
    arFresh eig (retOf x) (.fin f) = .ok (.fin ((k : ℝ) / n)) := by
  have hn0 : (0 : ℝ) < n := by have : 0 < n := by omega
                               exact_mod_cast this
  have htv : totalVar x = n * s := by
    rw [← trace_eq_totalVar, hcov, Matrix.trace_smul, Matrix.trace_one, Fintype.card_fin, smul_eq_mul, mul_comm]
  have hv : totalVar x ≠ 0 := by rw [htv]; exact mul_ne_zero hn0.ne' hs
  obtain ⟨k', hk, hkn, hr⟩ := fresh_value he x hn hT hv hf hf1
  have h0 : (0 : ℝ) ≤ f * n := by positivity
  have : k' = k := by
    have h : roundHalfUp (f * n) = k := by
      rw [roundHalfUp, if_pos h0, Int.floor_eq_iff]; push_cast; constructor <;> linarith
    omega
  subst this
  have hall : ∀ y ∈ eigList x, y = s := by
    intro y hy
    have hy' : y ∈ covEigs x := by rw [← eigList_coe]; exact hy
    rw [covEigs, hcov, Matrix.smul_one_eq_diagonal, Matrix.charpoly_diagonal, Polynomial.roots_prod] at hy'
    · exact Multiset.eq_of_mem_replicate (by simpa using hy')
    · simp [Finset.prod_ne_zero_iff, Polynomial.X_sub_C_ne_zero]
  have hlist : eigList x = List.replicate n s := by
    rw [List.eq_replicate_iff]; exact ⟨eigList_length x, hall⟩
  rw [hr, hlist, List.drop_replicate, List.sum_replicate, nsmul_eq_mul, htv,
    show n - (n - k') = k' by omega, mul_div_mul_right _ _ hs]

/-- two orthogonal assets over three days -/
def orthoRet : Fin 2 → Fin 4 → ℝ := ![![1, -1, 1, -1], ![1, 1, -1, -1]]

example := C104_uncorrelated rootsEig_contract orthoRet le_rfl (by norm_num) (s := 4 / 3) (by norm_num)
  (by ext i j; fin_cases i <;> fin_cases j <;>
        simp [covMatrix, assetMean, orthoRet, Fin.sum_univ_four] <;> norm_num)
  (f := 1 / 2) (k := 1) (by norm_num) (by norm_num) (by norm_num) (by norm_num)

/-! ### C105 -/

/-- C105: constant returns (zero total variance): every finite fraction gives NaN, not an error. -/
theorem C105_no_variance {eig : EigRoutine} (he : EigContract eig) (x : Fin n → Fin T → ℝ)
    (hn : 2 ≤ n) (hT : 2 ≤ T) (hv : totalVar x = 0) (f : ℝ) :
    arFresh eig (retOf x) (.fin f) = .ok .nan := by
  rw [arFresh_eq, show (retOf x).n = n from rfl, arMixed_retOf he x (by omega) hT, hv]
  have hz : ∀ y ∈ eigList x, y = 0 := by
    intro y hy
    have h1 := List.single_le_sum (eigList_nonneg x hT) y hy
    rw [eigList_sum, hv] at h1
    exact le_antisymm h1 (eigList_nonneg x hT y hy)
  unfold pySliceFrom
  rw [List.sum_eq_zero (fun y hy => hz y (List.mem_of_mem_drop hy)), XR.fin_div_zero, XR.infSign_zero]

/-- C105: a single asset raises `LinAlgError` (NumPy squeezes its covariance to a 0-d array). -/
theorem C105_single_asset (eig : EigRoutine) (r : Returns) (h : r.n = 1) (f : XR) :
    arFresh eig r f = .error .linAlgError := by
  rw [arFresh_eq]
  unfold arMixed npEigvals
  rw [if_pos (show (npCovMat r).n = 1 from h)]; rfl

theorem mul_pinf_ne_fin (y : XR) (z : ℝ) : y * XR.pinf ≠ .fin z := by
  intro h
  change XR.mul y XR.pinf = _ at h
  cases y <;> simp only [XR.mul] at h
  · cases h
  · cases h
  · cases h
  · unfold XR.infSign at h
    split at h
    · cases h
    · split at h <;> cases h

/-- C105: with at least two assets, fewer than two days always raise `LinAlgError` (`0 * (1/0)`
makes the covariance NaN). -/
theorem C105_too_few_days (eig : EigRoutine) (r : Returns) (hn : 2 ≤ r.n) (hT : r.T ≤ 1) (f : XR) :
    arFresh eig r f = .error .linAlgError := by
  rw [arFresh_eq]
  unfold arMixed npEigvals
  rw [if_neg (show ¬ (npCovMat r).n = 1 from by change ¬ r.n = 1; omega)]
  have : (npCovMat r).toReal? = none := by
    unfold Cov.toReal?
    rw [dif_neg]
    rintro ⟨M, hM⟩
    have h0 := hM ⟨0, by change 0 < r.n; omega⟩ ⟨0, by change 0 < r.n; omega⟩
    change (List.sum _) * (1 / XR.fin ((r.T - 1 : ℕ) : ℝ)) = _ at h0
    rw [show ((r.T - 1 : ℕ) : ℝ) = 0 by
      have : r.T - 1 = 0 := by omega
      rw [this]; simp, XR.one_def, XR.fin_div_zero, XR.infSign_pos one_pos] at h0
    exact mul_pinf_ne_fin _ _ h0
  rw [this]; rfl

theorem add_eq_fin {a b : XR} {z : ℝ} (h : a + b = .fin z) : (∃ u, a = .fin u) ∧ ∃ w, b = .fin w := by
  change XR.add a b = _ at h
  cases a <;> cases b <;> simp only [XR.add] at h <;> first | cases h; done | exact ⟨⟨_, rfl⟩, _, rfl⟩

theorem sum_eq_fin {l : List XR} : ∀ {z : ℝ}, l.sum = .fin z → ∀ y ∈ l, ∃ u, y = .fin u := by
  induction l with
  | nil => intro z _ y hy; cases hy
  | cons a l ih =>
    intro z h y hy
    rw [List.sum_cons] at h
    obtain ⟨h1, w, h2⟩ := add_eq_fin h
    rcases List.mem_cons.1 hy with rfl | hm
    · exact h1
    · exact ih h2 y hm

theorem mul_self_eq_fin {a : XR} {z : ℝ} (h : a * a = .fin z) : ∃ u, a = .fin u := by
  change XR.mul a a = _ at h
  cases a <;> simp only [XR.mul] at h <;> first | cases h; done | exact ⟨_, rfl⟩

theorem mul_fin_eq_fin {a : XR} {c z : ℝ} (hc : c ≠ 0) (h : a * .fin c = .fin z) : ∃ u, a = .fin u := by
  change XR.mul a (.fin c) = _ at h
  have hs : ∀ c : ℝ, c ≠ 0 → XR.infSign c ≠ .fin z := by
    intro c hc h
    unfold XR.infSign at h
    split at h
    · cases h
    · split at h <;> cases h
  cases a <;> simp only [XR.mul] at h
  · cases h
  · exact absurd h (hs _ (neg_ne_zero.2 hc))
  · exact absurd h (hs _ hc)
  · exact ⟨_, rfl⟩

/-- C105: with at least two assets and two days, one NaN or infinite return raises `LinAlgError`. -/
theorem C105_return_not_finite (eig : EigRoutine) (r : Returns) (hn : 2 ≤ r.n) (hT : 2 ≤ r.T) (i : Fin r.n)
    (t : Fin r.T) (h : ¬ ∃ u, r.at_ i t = .fin u) (f : XR) :
    arFresh eig r f = .error .linAlgError := by
  rw [arFresh_eq]
  unfold arMixed npEigvals
  rw [if_neg (show ¬ (npCovMat r).n = 1 from by change ¬ r.n = 1; omega)]
  have : (npCovMat r).toReal? = none := by
    unfold Cov.toReal?
    rw [dif_neg]
    rintro ⟨M, hM⟩
    apply h
    have h0 := hM i i
    change (List.sum _) * (1 / XR.fin ((r.T - 1 : ℕ) : ℝ)) = _ at h0
    have hT' : ((r.T - 1 : ℕ) : ℝ) ≠ 0 := by
      have : r.T - 1 ≠ 0 := by omega
      exact_mod_cast this
    rw [XR.one_def, XR.fin_div _ hT'] at h0
    obtain ⟨S, hS⟩ := mul_fin_eq_fin (one_div_ne_zero hT') h0
    obtain ⟨u, hu⟩ := sum_eq_fin hS _ ((List.mem_ofFn' _ _).2 ⟨t, rfl⟩)
    obtain ⟨d, hd⟩ := mul_self_eq_fin hu
    exact (add_eq_fin hd).1
  rw [this]; rfl

/-- C105: a fraction that is NaN raises `ValueError`, an infinite one `OverflowError`. -/
theorem C105_fraction_not_finite (eig : EigRoutine) (x : Fin n → Fin T → ℝ) (hn : 2 ≤ n) (hT : 2 ≤ T) :
    arFresh eig (retOf x) .nan = .error .valueError ∧
    arFresh eig (retOf x) .pinf = .error .overflowError ∧
    arFresh eig (retOf x) .ninf = .error .overflowError := by
  have hn0 : (0 : ℝ) < n := by have : 0 < n := by omega
                               exact_mod_cast this
  rw [arFresh_eq, arFresh_eq, arFresh_eq, show (retOf x).n = n from rfl]
  unfold arMixed
  rw [npEig_retOf x (by omega) hT]
  refine ⟨rfl, ?_, ?_⟩
  · have : XR.pinf * XR.fin (n : ℝ) = .pinf := by
      show XR.infSign _ = _; exact XR.infSign_pos hn0
    rw [this]; rfl
  · have : XR.ninf * XR.fin (n : ℝ) = .ninf := by
      show XR.infSign _ = _; exact XR.infSign_neg (by linarith)
    rw [this]; rfl

example : totalVar (fun (_ : Fin 2) (_ : Fin 2) => (3 : ℝ)) = 0 := by
  simp [totalVar, assetMean]

example := C105_return_not_finite rootsEig ⟨2, 2, fun _ _ => .nan⟩ le_rfl le_rfl 0 0 (by rintro ⟨u, h⟩; cases h) (.fin 1)

/-! ### Concrete cases of the theorems above -/

example (v : ℝ) (hv : IsTopSum {3, 1, 2} 2 v) : IsTopSum {3, 1, 2} 2 5 ∧ v = 5 := by
  have h : IsTopSum {3, 1, 2} 2 5 := ⟨([3, 2] : List ℝ), ([1] : List ℝ), Multiset.coe_eq_coe.2 (by simpa using List.Perm.swap 1 2 []),
    by simp, by simp, by norm_num⟩
  exact ⟨h, C10_topSum_unique hv h⟩
example := C11_endpoints rootsEig_contract demoRet le_rfl le_rfl (by rw [demoRet_var]; norm_num)
example (r : Returns) := C12_history_independent rootsEig r [ArOp.readCov, .estimate (.fin 1), .readEig] (by simp [ArOp.IsRead])
example := C13_above_one rootsEig_contract demoRet le_rfl le_rfl (by rw [demoRet_var]; norm_num) (f := 1.6) (by norm_num)
example := C102_shift_invariant rootsEig_contract demoRet le_rfl ![1, -2] (.fin (1 / 2))
example := C102_permutation_invariant rootsEig_contract demoRet le_rfl (Equiv.swap 0 1) (Equiv.swap 0 1) (.fin (1 / 2))
example := C102_scale_invariant rootsEig_contract demoRet le_rfl le_rfl (c := -3) (by norm_num) (1 / 2)
example := C105_no_variance rootsEig_contract (fun (_ : Fin 2) (_ : Fin 2) => (3 : ℝ)) le_rfl le_rfl (by simp [totalVar, assetMean]) 1
example := C105_single_asset rootsEig ⟨1, 5, fun _ _ => .fin 1⟩ rfl (.fin 1)
example := C105_too_few_days rootsEig ⟨3, 1, fun _ _ => .fin 1⟩ (by norm_num) le_rfl (.fin 1)
example := C105_fraction_not_finite rootsEig demoRet le_rfl le_rfl

end
end Frds.Props
