import Verif.Model.Srisk
import Verif.Lemmas.Spread

set_option linter.unusedSimpArgs false

/-! C29-C33: SRISK. -/
namespace Frds.Props
noncomputable section
open Frds Frds.Model Classical

/-- expected capital shortfall `k D - (1-k) W (1 - LRMES)` -/
def shortfall (k w d l : ℝ) : ℝ := k * d - (1 - k) * w * (1 - l)

theorem sriskFormula_fin {k w d l : ℝ} (hw : w ≠ 0) :
    sriskFormula (.fin k) (.fin w) (.fin d) (.fin l) = .fin (shortfall k w d l) := by
  simp only [sriskFormula, XR.one_def, XR.fin_add, XR.fin_div _ hw, XR.fin_mul, XR.fin_sub, XR.fin_inj,
    shortfall]
  field_simp; ring

theorem sriskFormula_zero (k d l : ℝ) :
    sriskFormula (.fin k) (.fin 0) (.fin d) (.fin l) = .nan := by
  have hz : ∀ y : XR, (∀ r, y ≠ .fin r) → XR.fin 0 * y = .nan := by
    intro y hy
    cases y with
    | nan => simp
    | fin r => exact absurd rfl (hy r)
    | pinf => show XR.infSign 0 = _; simp [XR.infSign]
    | ninf => show XR.infSign (-0) = _; simp [XR.infSign]
  unfold sriskFormula
  apply hz
  intro r
  simp only [XR.fin_add, add_zero, XR.fin_div_zero, XR.one_def, XR.fin_sub, XR.fin_mul]
  have : ∀ y : XR, (∀ r, y ≠ .fin r) → ∀ c r, y + .fin c - .fin 1 ≠ .fin r := by
    intro y hy c r
    cases y with
    | nan => simp
    | fin r => exact absurd rfl (hy r)
    | pinf => intro h; cases h
    | ninf => intro h; cases h
  apply this
  intro r'
  unfold XR.infSign
  split_ifs with h1 h2
  · show XR.infSign k ≠ _
    unfold XR.infSign; split_ifs <;> simp
  · show XR.infSign (-k) ≠ _
    unfold XR.infSign; split_ifs <;> simp
  · simp

/-! ### inversion of the several-firm case -/

theorem mapM_ok {α β ε} {f : α → Except ε β} {l : List α} {r : List β} (h : l.mapM f = .ok r) :
    List.Forall₂ (fun a b => f a = .ok b) l r := by
  induction l generalizing r with
  | nil => cases h; exact .nil
  | cons a t ih =>
    rw [List.mapM_cons] at h
    cases ha : f a with
    | error e => rw [ha] at h; cases h
    | ok b =>
      rw [ha] at h
      cases ht : t.mapM f with
      | error e => rw [ht] at h; cases h
      | ok bs =>
        rw [ht] at h; cases h
        exact .cons ha (ih ht)

theorem mapM_of_forall₂ {α β ε} {f : α → Except ε β} {l : List α} {r : List β}
    (h : List.Forall₂ (fun a b => f a = .ok b) l r) : l.mapM f = .ok r := by
  induction h with
  | nil => rfl
  | cons h1 _ ih => rw [List.mapM_cons, h1, ih]; rfl

/-- a constructed multi-firm object -/
theorem ctor_multi {firm market : Nd} {W D : Money} {s : SriskObj}
    (h : sriskCtor firm market W D = .ok s) (hn : s.nFirms ≠ 1) :
    ∃ n m rest w d, firm.shape = [n, m] ∧ 1 < m ∧ market.shape = n :: rest ∧ W = .nd w ∧ D = .nd d ∧
      w.shape = [m] ∧ d.shape = [m] ∧ s = ⟨firm, market, W, D, m, n⟩ := by
  unfold sriskCtor at h
  split_ifs at h with h1 h2
  · split at h
    · cases h; exact absurd rfl hn
    · cases h
  · split at h
    · rename_i n m hs
      split_ifs at h with h3
      split at h
      · cases h
      · rename_i k rest hm
        split_ifs at h with h4
        split at h
        · rename_i d w
          split_ifs at h with h5 h6
          cases h
          push Not at h4 h5 h6
          exact ⟨n, m, rest, w, d, hs, h3, by rw [hm, h4], rfl, rfl, h5 ▸ h6, h6, rfl⟩
        · cases h
    · cases h

theorem ctor_single {firm market : Nd} {W D : Money} {s : SriskObj}
    (h : sriskCtor firm market W D = .ok s) (hn : s.nFirms = 1) :
    ∃ n w d, firm.shape = [n] ∧ market.shape = [n] ∧ W = .float w ∧ D = .float d ∧
      s = ⟨firm, market, W, D, 1, n⟩ := by
  unfold sriskCtor at h
  split_ifs at h with h1 h2
  · obtain ⟨n, hs⟩ := List.length_eq_one_iff.mp h1
    split at h
    · rename_i d w
      cases h
      push Not at h2
      exact ⟨n, w, d, hs, by rw [← h2, hs], rfl, rfl, by simp [hs]⟩
    · cases h
  · split at h
    · rename_i n m hs
      split_ifs at h with h3
      split at h
      · cases h
      · split_ifs at h with h4
        split at h
        · split_ifs at h with h5 h6
          cases h
          simp at hn; omega
        · cases h
    · cases h

/-- everything known about a successful several-firm `estimate`: one LRMES per firm, in order -/
theorem multi_out {L : LrmesFn} {s : SriskObj} {k : PyFloat} {o : LrmesOpts} {out : List XR}
    {w d : Nd} (hn : s.nFirms ≠ 1) (hw : s.W = .nd w) (hd : s.D = .nd d)
    (hws : w.shape = [s.nFirms]) (hds : d.shape = [s.nFirms])
    (h : sriskEstimate L s k o false = .ok (.array out)) :
    ∃ ls : List PyFloat, ls.length = s.nFirms ∧ out.length = s.nFirms ∧
      ∀ i, (hi : i < s.nFirms) → ∃ l, ls[i]? = some l ∧
        runLrmes L o (s.firm.column i) s.market = .ok l ∧
        out[i]? = some (sriskFormula k.val (w.at_ [i]) (d.at_ [i]) l.val) := by
  unfold sriskEstimate at h
  rw [if_neg hn] at h
  simp only [bind, Except.bind] at h
  split at h
  · cases h
  · rename_i ls hls
    simp only [hw, hd, Bool.false_eq_true, not_false_eq_true, if_true, Except.ok.injEq,
      SriskOut.array.injEq] at h
    have hf := mapM_ok hls
    have hlen : ls.length = s.nFirms := by simpa using hf.length_eq.symm
    refine ⟨ls, hlen, ?_, ?_⟩
    · rw [← h]; simp [Nd.vec, hws, hds, hlen]
    · intro i hi
      have hil : i < ls.length := hlen ▸ hi
      have hg := (List.forall₂_iff_get.mp hf).2 i (by simpa using hi) hil
      refine ⟨ls[i], by simp [hil], by simpa using hg, ?_⟩
      rw [← h]
      simp [Nd.vec, hws, hds, List.getElem?_zipWith, hi, hil, List.zip_eq_zipWith]

/-! ### C29 -/

/-- C29 (one firm): for `W ≠ 0` the result is `k D - (1-k) W (1-LRMES)`, with LRMES estimated from
the firm's and market's returns with the given horizon, sample size, threshold and seed. -/
theorem C29_single (L : LrmesFn) {firm market : Nd} {w d : ℝ} {wn dn : Bool} {s : SriskObj}
    (h : sriskCtor firm market (.float ⟨.fin w, wn⟩) (.float ⟨.fin d, dn⟩) = .ok s) (hw : w ≠ 0)
    (k l : ℝ) (kn ln : Bool) (o : LrmesOpts)
    (hl : L firm.vec market.vec o.h o.S o.C o.seed = .ok ⟨.fin l, ln⟩) :
    ∃ r : PyFloat, sriskEstimate L s ⟨.fin k, kn⟩ o false = .ok (.scalar r) ∧
      r.val = .fin (shortfall k w d l) := by
  by_cases hn : s.nFirms = 1
  · obtain ⟨n, w', d', h1, h2, h3, h4, rfl⟩ := ctor_single h hn
    have hr : runLrmes L o firm.vec market = .ok ⟨.fin l, ln⟩ := by
      simp [runLrmes, h2, Nd.vec, h1] at hl ⊢; exact hl
    refine ⟨⟨.fin (shortfall k w d l), wn || dn || kn || ln⟩, ?_, rfl⟩
    unfold sriskEstimate
    rw [if_pos rfl]
    simp only [bind, Except.bind, hr, sriskFormula_fin hw]
    rw [if_neg (by rintro ⟨_, h⟩; exact hw (XR.fin_inj.mp h))]
    simp
  · obtain ⟨_, _, _, _, _, _, _, _, h, _⟩ := ctor_multi h hn
    cases h

/-- C29 (several firms): the output has one entry per firm; entry `i` is
`k D_i - (1-k) W_i (1-LRMES_i)`, LRMES_i estimated from column `i` and the market with the same
horizon, sample size, threshold and seed for every firm. -/
theorem C29_multi (L : LrmesFn) {firm market : Nd} {w d : Nd} {s : SriskObj}
    (h : sriskCtor firm market (.nd w) (.nd d) = .ok s)
    (k : ℝ) (kn : Bool) (o : LrmesOpts) {out : List XR}
    (he : sriskEstimate L s ⟨.fin k, kn⟩ o false = .ok (.array out)) :
    out.length = firm.shape.getD 1 0 ∧
    ∀ i < out.length, ∃ y : PyFloat,
      L (firm.column i) market.vec o.h o.S o.C o.seed = .ok y ∧
      ∀ wi di l : ℝ, w.at_ [i] = .fin wi → d.at_ [i] = .fin di → y.val = .fin l →
        (wi ≠ 0 → out[i]? = some (.fin (shortfall k wi di l))) ∧
        (wi = 0 → out[i]? = some .nan) := by
  by_cases hn : s.nFirms = 1
  · obtain ⟨_, _, _, _, _, h, _⟩ := ctor_single h hn
    cases h
  · obtain ⟨n, m, rest, w', d', h1, h2, h3, h4, h5, h6, h7, rfl⟩ := ctor_multi h hn
    cases h4; cases h5
    obtain ⟨ls, _, hlen, hout⟩ := multi_out hn rfl rfl h6 h7 he
    refine ⟨by simp [hlen, h1], ?_⟩
    intro i hi
    rw [hlen] at hi
    obtain ⟨y, _, hy, ho⟩ := hout i hi
    refine ⟨y, ?_, ?_⟩
    · unfold runLrmes at hy
      split_ifs at hy
      exact hy
    · intro wi di l e1 e2 e3
      rw [ho, e1, e2, e3]
      exact ⟨fun hw => by rw [sriskFormula_fin hw], fun hw => by rw [hw, sriskFormula_zero]⟩

/-- C29 (one firm, `W = 0`): `ZeroDivisionError` for built-in floats, NaN for NumPy floats. -/
theorem C29_zero_equity (L : LrmesFn) {firm market : Nd} {d : ℝ} {wn dn : Bool} {s : SriskObj}
    (h : sriskCtor firm market (.float ⟨.fin 0, wn⟩) (.float ⟨.fin d, dn⟩) = .ok s)
    (k l : ℝ) (kn ln : Bool) (o : LrmesOpts)
    (hl : L firm.vec market.vec o.h o.S o.C o.seed = .ok ⟨.fin l, ln⟩) :
    sriskEstimate L s ⟨.fin k, kn⟩ o false =
      if wn || dn then .ok (.scalar ⟨.nan, true⟩) else .error .zeroDivisionError := by
  by_cases hn : s.nFirms = 1
  · obtain ⟨n, w', d', h1, h2, h3, h4, rfl⟩ := ctor_single h hn
    have hr : runLrmes L o firm.vec market = .ok ⟨.fin l, ln⟩ := by
      simp [runLrmes, h2, Nd.vec, h1] at hl ⊢; exact hl
    unfold sriskEstimate
    rw [if_pos rfl]
    simp only [bind, Except.bind, hr, sriskFormula_zero]
    cases wn <;> cases dn <;> simp [XR.zero_def]
  · obtain ⟨_, _, _, _, _, _, _, _, h, _⟩ := ctor_multi h hn
    cases h

/-! ### C30 -/

/-- C30: firm `i`'s SRISK depends only on its own return column, equity, debt, and the market:
two calls that agree on these give the same value, whatever the other firms are and however many. -/
theorem C30_own_column (L : LrmesFn) {firm firm' market : Nd} {w d w' d' : Nd} {s s' : SriskObj}
    (h : sriskCtor firm market (.nd w) (.nd d) = .ok s)
    (h' : sriskCtor firm' market (.nd w') (.nd d') = .ok s')
    (k : PyFloat) (o : LrmesOpts) {out out' : List XR}
    (he : sriskEstimate L s k o false = .ok (.array out))
    (he' : sriskEstimate L s' k o false = .ok (.array out'))
    {i j : ℕ} (hi : i < out.length) (hj : j < out'.length)
    (hcol : firm.column i = firm'.column j) (hw : w.at_ [i] = w'.at_ [j]) (hd : d.at_ [i] = d'.at_ [j]) :
    out[i]? = out'[j]? := by
  have n1 : s.nFirms ≠ 1 := fun hn => by
    obtain ⟨_, _, _, _, _, h, _⟩ := ctor_single h hn; cases h
  have n2 : s'.nFirms ≠ 1 := fun hn => by
    obtain ⟨_, _, _, _, _, h, _⟩ := ctor_single h' hn; cases h
  obtain ⟨n, m, rest, _, _, h1, h2, h3, h4, h5, h6, h7, rfl⟩ := ctor_multi h n1
  cases h4; cases h5
  obtain ⟨n', m', rest', _, _, g1, g2, g3, g4, g5, g6, g7, rfl⟩ := ctor_multi h' n2
  cases g4; cases g5
  obtain ⟨_, _, hlen, hout⟩ := multi_out n1 rfl rfl h6 h7 he
  obtain ⟨_, _, hlen', hout'⟩ := multi_out n2 rfl rfl g6 g7 he'
  obtain ⟨y, _, hy, ho⟩ := hout i (hlen ▸ hi)
  obtain ⟨y', _, hy', ho'⟩ := hout' j (hlen' ▸ hj)
  simp only at hy hy'
  rw [hcol, hy'] at hy
  cases hy
  rw [ho, ho', hw, hd]

/-- C30: permuting the firms (columns of the returns and entries of `W`, `D`, by `σ`) permutes the
output. -/
theorem C30_permutation (L : LrmesFn) {firm firm' market : Nd} {w d w' d' : Nd} {s s' : SriskObj}
    (h : sriskCtor firm market (.nd w) (.nd d) = .ok s)
    (h' : sriskCtor firm' market (.nd w') (.nd d') = .ok s')
    (k : PyFloat) (o : LrmesOpts) {out out' : List XR}
    (he : sriskEstimate L s k o false = .ok (.array out))
    (he' : sriskEstimate L s' k o false = .ok (.array out'))
    (hlen : out.length = out'.length)
    (σ : Equiv.Perm (Fin out.length))
    (hcol : ∀ i : Fin out.length, firm.column (σ i) = firm'.column i ∧
      w.at_ [(σ i : ℕ)] = w'.at_ [(i : ℕ)] ∧ d.at_ [(σ i : ℕ)] = d'.at_ [(i : ℕ)]) :
    (∀ i : Fin out.length, out'[(i : ℕ)]? = out[(σ i : ℕ)]?) ∧ out.Perm out' := by
  have key : ∀ i : Fin out.length, out'[(i : ℕ)]? = out[(σ i : ℕ)]? := fun i =>
    (C30_own_column L h h' k o he he' (σ i).2 (hlen ▸ i.2) (hcol i).1 (hcol i).2.1 (hcol i).2.2).symm
  refine ⟨key, ?_⟩
  have e1 : out = List.ofFn fun i : Fin out.length => out[i] := by simp
  have e2 : out' = List.ofFn fun i : Fin out.length => out[σ i] := by
    apply List.ext_getElem?
    intro n
    by_cases hn : n < out.length
    · rw [key ⟨n, hn⟩]; simp [hn]
    · rw [List.getElem?_eq_none (by omega), List.getElem?_eq_none (by simp; omega)]
  rw [e2]
  conv_lhs => rw [e1]
  exact (Equiv.Perm.ofFn_comp_perm σ (fun i : Fin out.length => out[i])).symm

/-! ### C31 -/

theorem npMax_zero_fin (r : ℝ) : XR.npMax (.fin r) 0 = .fin (max r 0) := by
  rw [XR.zero_def, XR.npMax_fin]

/-- the aggregate call runs the same firm-level computation -/
theorem aggregate_of_array {L : LrmesFn} {s : SriskObj} {k : PyFloat} {o : LrmesOpts} {out : List XR}
    (h : sriskEstimate L s k o false = .ok (.array out)) :
    sriskEstimate L s k o true = .ok (.scalar ⟨(out.map fun x => XR.npMax x 0).sum, true⟩) := by
  unfold sriskEstimate at h ⊢
  by_cases hn : s.nFirms = 1
  · rw [if_pos hn] at h
    simp only [bind, Except.bind] at h
    split at h
    · cases h
    · split at h
      · split_ifs at h <;> simp at h
      · cases h
  · rw [if_neg hn] at h ⊢
    simp only [bind, Except.bind] at h ⊢
    split at h
    · cases h
    · rename_i ls hls
      try simp only [hls]
      split at h
      · simp only [Bool.false_eq_true, not_false_eq_true, if_true, Except.ok.injEq,
          SriskOut.array.injEq] at h
        rw [← h]; simp
      · cases h

/-- C31: with several firms whose SRISKs are the real numbers `v`, the aggregate is
`Σ max(0, v_i)`; it is at least every `v_i`, at least the plain sum, non-negative, and zero exactly
when no firm has a shortfall. -/
theorem C31_aggregate (L : LrmesFn) (s : SriskObj) (k : PyFloat) (o : LrmesOpts) (v : List ℝ)
    (h : sriskEstimate L s k o false = .ok (.array (v.map XR.fin))) :
    ∃ A : ℝ, sriskEstimate L s k o true = .ok (.scalar ⟨.fin A, true⟩) ∧
      A = (v.map fun x => max x 0).sum ∧ 0 ≤ A ∧ (∀ x ∈ v, x ≤ A) ∧ v.sum ≤ A ∧
      (A = 0 ↔ ∀ x ∈ v, x ≤ 0) := by
  refine ⟨(v.map fun x => max x 0).sum, ?_, rfl, ?_, ?_, ?_, ?_⟩
  · rw [aggregate_of_array h, List.map_map]
    simp only [Function.comp_def, npMax_zero_fin]
    rw [XR.sum_fin]
  · exact sum_map_nonneg' fun x _ => le_max_right _ _
  · intro x hx
    refine le_trans (le_max_left x 0) ?_
    exact List.single_le_sum (by
      intro y hy; obtain ⟨z, _, rfl⟩ := List.mem_map.mp hy; exact le_max_right _ _) _
      (List.mem_map.mpr ⟨x, hx, rfl⟩)
  · have := sum_map_le' (l := v) (f := fun x => x) (g := fun x => max x 0) fun x _ => le_max_left _ _
    simpa using this
  · rw [sum_eq_zero_iff' fun x _ => le_max_right _ _]
    simp

/-- C31: the aggregate is invariant under permuting the firm-level values. -/
theorem C31_order (L : LrmesFn) (s s' : SriskObj) (k : PyFloat) (o : LrmesOpts) {out out' : List XR}
    (h : sriskEstimate L s k o false = .ok (.array out))
    (h' : sriskEstimate L s' k o false = .ok (.array out')) (hp : out.Perm out') :
    sriskEstimate L s k o true = sriskEstimate L s' k o true := by
  rw [aggregate_of_array h, aggregate_of_array h', (hp.map _).sum_eq]

/-! ### C32 -/

/-- C32: the constructor succeeds exactly on the documented contract. -/
theorem C32_contract (firm market : Nd) (W D : Money) :
    (∃ s, sriskCtor firm market W D = .ok s) ↔
      (∃ n, firm.shape = [n] ∧ market.shape = [n] ∧ (∃ w, W = .float w) ∧ ∃ d, D = .float d) ∨
      (∃ n m rest, firm.shape = [n, m] ∧ 1 < m ∧ market.shape = n :: rest ∧
        (∃ w, W = .nd w ∧ w.shape = [m]) ∧ ∃ d, D = .nd d ∧ d.shape = [m]) := by
  constructor
  · rintro ⟨s, h⟩
    by_cases hn : s.nFirms = 1
    · obtain ⟨n, w, d, h1, h2, h3, h4, _⟩ := ctor_single h hn
      exact .inl ⟨n, h1, h2, ⟨w, h3⟩, ⟨d, h4⟩⟩
    · obtain ⟨n, m, rest, w, d, h1, h2, h3, h4, h5, h6, h7, _⟩ := ctor_multi h hn
      exact .inr ⟨n, m, rest, h1, h2, h3, ⟨w, h4, h6⟩, ⟨d, h5, h7⟩⟩
  · rintro (⟨n, h1, h2, ⟨w, rfl⟩, ⟨d, rfl⟩⟩ | ⟨n, m, rest, h1, h2, h3, ⟨w, rfl, h4⟩, ⟨d, rfl, h5⟩⟩)
    · exact ⟨_, by simp [sriskCtor, h1, h2]; rfl⟩
    · exact ⟨⟨firm, market, .nd w, .nd d, m, n⟩, by simp [sriskCtor, h1, h2, h3, h4, h5]⟩

/-- C32: what it raises otherwise: `ValueError` when the returns have neither one nor two
dimensions, `IndexError` for a zero-dimensional market series next to two-dimensional firm returns
of several firms, `AssertionError` in every other case. -/
theorem C32_errors (firm market : Nd) (W D : Money) (e : PyErr)
    (h : sriskCtor firm market W D = .error e) :
    e = if firm.shape.length ≠ 1 ∧ firm.shape.length ≠ 2 then .valueError
        else if firm.shape.length = 2 ∧ 1 < firm.shape.getD 1 0 ∧ market.shape = [] then .indexError
        else .assertionError := by
  unfold sriskCtor at h
  split_ifs at h with h1 h2
  · cases h; simp [h1]
  · split at h <;> cases h; simp [h1]
  · split at h
    · rename_i n m hs
      by_cases h3 : 1 < m
      swap
      · rw [if_pos h3] at h; cases h; simp [hs]; omega
      · rw [if_neg (not_not.mpr h3)] at h
        split at h
        · rename_i hm
          cases h; simp [hs, hm]; omega
        · rename_i k rest hm
          have : e = .assertionError := by
            split_ifs at h
            · cases h; rfl
            · split at h
              · split_ifs at h <;> cases h <;> rfl
              · cases h; rfl
          rw [this]; simp [hs, hm]
    · rename_i hs
      cases h
      have : firm.shape.length ≠ 2 := by
        intro h2
        obtain ⟨a, b, hab⟩ := List.length_eq_two.mp h2
        exact hs a b hab
      rw [if_pos ⟨h1, this⟩]

/-! ### C33 -/

/-- C33: one firm, built-in floats throughout: `aggregate_srisk=True` raises `AttributeError`
(when the division does not already fail). -/
theorem C33_attribute_error (L : LrmesFn) {firm market : Nd} {w d : XR} {s : SriskObj}
    (h : sriskCtor firm market (.float ⟨w, false⟩) (.float ⟨d, false⟩) = .ok s) (hw : w ≠ 0)
    (k l : XR) (o : LrmesOpts)
    (hl : L firm.vec market.vec o.h o.S o.C o.seed = .ok ⟨l, false⟩) :
    sriskEstimate L s ⟨k, false⟩ o true = .error .attributeError := by
  by_cases hn : s.nFirms = 1
  · obtain ⟨n, w', d', h1, h2, h3, h4, rfl⟩ := ctor_single h hn
    have hr : runLrmes L o firm.vec market = .ok ⟨l, false⟩ := by
      simp [runLrmes, h2, Nd.vec, h1] at hl ⊢; exact hl
    unfold sriskEstimate
    rw [if_pos rfl]
    simp [bind, Except.bind, hr, hw]
  · obtain ⟨_, _, _, _, _, _, _, _, h, _⟩ := ctor_multi h hn
    cases h

/-- C33: with a NumPy LRMES value (systemic paths and the Python backend) it returns
`max(0, SRISK)`. -/
theorem C33_numpy (L : LrmesFn) {firm market : Nd} {w d : ℝ} {wn dn : Bool} {s : SriskObj}
    (h : sriskCtor firm market (.float ⟨.fin w, wn⟩) (.float ⟨.fin d, dn⟩) = .ok s) (hw : w ≠ 0)
    (k l : ℝ) (kn : Bool) (o : LrmesOpts)
    (hl : L firm.vec market.vec o.h o.S o.C o.seed = .ok ⟨.fin l, true⟩) :
    sriskEstimate L s ⟨.fin k, kn⟩ o true
      = .ok (.scalar ⟨.fin (max (shortfall k w d l) 0), true⟩) := by
  by_cases hn : s.nFirms = 1
  · obtain ⟨n, w', d', h1, h2, h3, h4, rfl⟩ := ctor_single h hn
    have hr : runLrmes L o firm.vec market = .ok ⟨.fin l, true⟩ := by
      simp [runLrmes, h2, Nd.vec, h1] at hl ⊢; exact hl
    unfold sriskEstimate
    rw [if_pos rfl]
    simp only [bind, Except.bind, hr, sriskFormula_fin hw, npMax_zero_fin]
    rw [if_neg (by rintro ⟨_, h⟩; exact hw (XR.fin_inj.mp h))]
    simp
  · obtain ⟨_, _, _, _, _, _, _, _, h, _⟩ := ctor_multi h hn
    cases h

/-- C33: which LRMES results are built-in floats: exactly those with no systemic path or computed
by the C++ extension (whose result is a built-in `float`). -/
theorem C33_lrmes_kind (cpp : Bool) (x : SimArgs) (paths : List (List (XR × XR))) :
    (lrmesResult cpp (accumulate cpp x paths)).isNumpy = false
      ↔ cpp = true ∨ (accumulate cpp x paths).2 = 0 := by
  unfold lrmesResult
  split_ifs with h <;> simp [h]

/-! ### concrete cases -/

/-- a constant LRMES estimator -/
def demoL : LrmesFn := fun _ _ _ _ _ _ => .ok ⟨.fin (1 / 2), false⟩
def demoFirm1 : Nd := ⟨[3], fun _ => .fin 0⟩
def demoFirms : Nd := ⟨[3, 2], fun _ => .fin 0⟩
def demoW : Nd := ⟨[2], fun i => .fin (10 + (i.headD 0 : ℕ))⟩

example : ∃ s, sriskCtor demoFirm1 demoFirm1 (.float ⟨.fin 10, false⟩) (.float ⟨.fin 90, false⟩) = .ok s ∧
    demoL demoFirm1.vec demoFirm1.vec 22 10000 (.fin (-(1/10))) 42 = .ok ⟨.fin (1/2), false⟩ :=
  ⟨⟨demoFirm1, demoFirm1, .float ⟨.fin 10, false⟩, .float ⟨.fin 90, false⟩, 1, 3⟩, by
    simp [sriskCtor, demoFirm1], rfl⟩

example : ∃ s, sriskCtor demoFirms demoFirm1 (.nd demoW) (.nd demoW) = .ok s ∧
    ∃ v : List ℝ, sriskEstimate demoL s ⟨.fin (8 / 100), false⟩ {} false = .ok (.array (v.map XR.fin)) := by
  refine ⟨⟨demoFirms, demoFirm1, .nd demoW, .nd demoW, 2, 3⟩, ?_,
    [shortfall (8/100) (10 + (0:ℕ)) (10 + (0:ℕ)) (1/2), shortfall (8/100) (10 + (1:ℕ)) (10 + (1:ℕ)) (1/2)], ?_⟩
  · simp [sriskCtor, demoFirms, demoFirm1, demoW]
  · have hr : ∀ i, runLrmes demoL {} (demoFirms.column i) demoFirm1 = .ok ⟨.fin (1/2), false⟩ := by
      intro i; simp [runLrmes, demoFirm1, Nd.column, demoFirms, demoL]
    have e1 := sriskFormula_fin (k := 8/100) (w := 10 + (0:ℕ)) (d := 10 + (0:ℕ)) (l := 1/2) (by norm_num)
    have e2 := sriskFormula_fin (k := 8/100) (w := 10 + (1:ℕ)) (d := 10 + (1:ℕ)) (l := 1/2) (by norm_num)
    unfold sriskEstimate
    rw [if_neg (by decide)]
    simp only [bind, Except.bind, hr]
    rw [mapM_of_forall₂ (l := List.range 2) (r := [⟨.fin (1/2), false⟩, ⟨.fin (1/2), false⟩]) (.cons rfl (.cons rfl .nil))]
    simp only [Bool.false_eq_true, not_false_eq_true, if_true, Except.ok.injEq, SriskOut.array.injEq]
    show [sriskFormula _ _ _ _, sriskFormula _ _ _ _] = _
    simp only [List.map_cons, List.map_nil, ← e1, ← e2]
    rfl

/-! ### Concrete cases of the theorems above -/

theorem demo_single (w : ℝ) (b : Bool) : sriskCtor demoFirm1 demoFirm1 (.float ⟨.fin w, b⟩) (.float ⟨.fin 90, b⟩)
    = .ok ⟨demoFirm1, demoFirm1, .float ⟨.fin w, b⟩, .float ⟨.fin 90, b⟩, 1, 3⟩ := by
  simp [sriskCtor, demoFirm1]

/-- equity and debt in the other order of firms -/
def demoW' : Nd := ⟨[2], fun i => .fin (10 + ((1 - i.headD 0 : ℕ) : ℝ))⟩

theorem demo_ctor : sriskCtor demoFirms demoFirm1 (.nd demoW) (.nd demoW) = .ok ⟨demoFirms, demoFirm1, .nd demoW, .nd demoW, 2, 3⟩ ∧
    sriskCtor demoFirms demoFirm1 (.nd demoW') (.nd demoW') = .ok ⟨demoFirms, demoFirm1, .nd demoW', .nd demoW', 2, 3⟩ := by
  simp [sriskCtor, demoFirms, demoFirm1, demoW, demoW']

theorem demo_out : sriskEstimate demoL ⟨demoFirms, demoFirm1, .nd demoW, .nd demoW, 2, 3⟩ ⟨.fin (8 / 100), false⟩ {} false =
      .ok (.array ([shortfall (8/100) (10 + (0:ℕ)) (10 + (0:ℕ)) (1/2), shortfall (8/100) (10 + (1:ℕ)) (10 + (1:ℕ)) (1/2)].map XR.fin)) ∧
    sriskEstimate demoL ⟨demoFirms, demoFirm1, .nd demoW', .nd demoW', 2, 3⟩ ⟨.fin (8 / 100), false⟩ {} false =
      .ok (.array ([shortfall (8/100) (10 + (1:ℕ)) (10 + (1:ℕ)) (1/2), shortfall (8/100) (10 + (0:ℕ)) (10 + (0:ℕ)) (1/2)].map XR.fin)) := by
  have hr : ∀ i, runLrmes demoL {} (demoFirms.column i) demoFirm1 = .ok ⟨.fin (1/2), false⟩ := by
    intro i; simp [runLrmes, demoFirm1, Nd.column, demoFirms, demoL]
  have e1 := sriskFormula_fin (k := 8/100) (w := 10 + (0:ℕ)) (d := 10 + (0:ℕ)) (l := 1/2) (by norm_num)
  have e2 := sriskFormula_fin (k := 8/100) (w := 10 + (1:ℕ)) (d := 10 + (1:ℕ)) (l := 1/2) (by norm_num)
  constructor
  all_goals
    unfold sriskEstimate
    rw [if_neg (by decide)]
    simp only [bind, Except.bind, hr]
    rw [mapM_of_forall₂ (l := List.range 2) (r := [⟨.fin (1/2), false⟩, ⟨.fin (1/2), false⟩]) (.cons rfl (.cons rfl .nil))]
    simp only [Bool.false_eq_true, not_false_eq_true, if_true, Except.ok.injEq, SriskOut.array.injEq]
    show [sriskFormula _ _ _ _, sriskFormula _ _ _ _] = _
    simp only [List.map_cons, List.map_nil, ← e1, ← e2]
    rfl

example := C29_single demoL (demo_single 10 false) (by norm_num) (8 / 100) (1 / 2) false false {} rfl
example := C29_zero_equity demoL (demo_single 0 false) (8 / 100) (1 / 2) false false {} rfl
example := C33_attribute_error demoL (demo_single 10 false) (by simp [XR.zero_def]) (.fin (8 / 100)) (.fin (1 / 2)) {} rfl
/-- with a NumPy LRMES -/
example := C33_numpy (fun _ _ _ _ _ _ => .ok ⟨.fin (1 / 2), true⟩) (demo_single 10 true) (by norm_num) (8 / 100) (1 / 2) true {} rfl
example := C29_multi demoL demo_ctor.1 (8 / 100) false {} demo_out.1
example := C31_aggregate demoL _ _ {} _ demo_out.1
example := C31_order demoL _ _ _ {} demo_out.1 demo_out.2 (.swap _ _ _)
example := C30_own_column demoL demo_ctor.1 demo_ctor.2 _ {} demo_out.1 demo_out.2 (i := 0) (j := 1) (by simp) (by simp) rfl rfl rfl
/-- two firms in the other order -/
example := C30_permutation demoL demo_ctor.1 demo_ctor.2 _ {} demo_out.1 demo_out.2 rfl (show Equiv.Perm (Fin 2) from Equiv.swap 0 1) (by
  intro i
  fin_cases i <;> exact ⟨rfl, rfl, rfl⟩)
example := C32_errors demoFirms demoFirm1 (.float ⟨.fin 1, false⟩) (.nd demoW) _ (by simp [sriskCtor, demoFirms, demoFirm1]; rfl)

end
end Frds.Props
