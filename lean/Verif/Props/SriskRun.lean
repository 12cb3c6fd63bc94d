import Verif.Model.SriskRun
import Verif.Props.Srisk
import Verif.Props.Lrmes
import Verif.Props.LrmesSilent

/-! C189: SRISK with the LRMES estimation it runs. -/
namespace Frds.Spec
noncomputable section
open Frds Frds.Model Frds.Model.SriskRun

/-- new arrays have the length of the series -/
def Machine.Fits (E : Machine) : Prop := ∀ firm market : List XR,
  (E.mem firm market).1.1.length = firm.length ∧ (E.mem firm market).1.2.length = firm.length ∧
  (E.mem firm market).2.1.length = market.length ∧ (E.mem firm market).2.2.length = market.length

end
end Frds.Spec

namespace Frds.Props
noncomputable section
open Frds Frds.Model Frds.Spec Frds.Model.LrmesObj Frds.Model.SriskRun Frds.Props.LrmesRun Classical
set_option linter.unusedSimpArgs false

namespace SriskRun

/-- LRMES of usable series: `RuntimeError` or a value that is at most 1 if it is finite -/
theorem lrmes_usable {E : Machine} (hE : Machine.Fits E) {firm market : List XR} (hl : firm.length = market.length)
    (hf : UsableReturns firm) (hm : UsableReturns market) (h S : ℕ) (C : XR) (seed : ℕ) :
    lrmesFn E firm market h S C seed = .error .runtimeError ∨
      ∃ y, lrmesFn E firm market h S C seed = .ok y ∧ ∀ l, y.val = .fin l → l ≤ 1 := by
  obtain ⟨m1, m2, m3, m4⟩ := hE firm market
  obtain ⟨o, o', r, hn, -, hA, hB⟩ := C181_completes E.cppA E.cppM E.optu E.opt firm market (E.mem firm market).1.1
    (E.mem firm market).1.2 (E.mem firm market).2.1 (E.mem firm market).2.2 firm.length rfl hl.symm hf hm m1 m2
    (by rw [m3, hl]) (by rw [m4, hl]) ⟨C, E.draw seed S h⟩
  unfold lrmesFn
  rw [hn]
  simp only
  cases hs : o'.success with
  | false => exact .inl (hA hs)
  | true =>
    obtain ⟨rho, v, -, -, ⟨f, -, hout⟩, hv⟩ := hB hs
    exact .inr ⟨v, hv, fun l h => C35_le_one E.cppM f _ _ v l (by rw [← hout, hv]) h⟩

theorem mapM_cases {α β : Type} {f : α → Except PyErr β} {e : PyErr} : ∀ {l : List α},
    (∀ a ∈ l, f a = .error e ∨ ∃ b, f a = .ok b) → l.mapM f = .error e ∨ ∃ r, l.mapM f = .ok r
  | [], _ => .inr ⟨[], rfl⟩
  | a :: t, h => by
    rw [List.mapM_cons]
    rcases h a (by simp) with ha | ⟨b, ha⟩
    · left; rw [ha]; rfl
    · rcases mapM_cases (l := t) fun x hx => h x (by simp [hx]) with ht | ⟨r, ht⟩
      · left; rw [ha, ht]; rfl
      · right; rw [ha, ht]; exact ⟨_, rfl⟩

theorem shortfall_le {k w d l : ℝ} (hk : k ≤ 1) (hw : 0 ≤ w) (hl : l ≤ 1) : shortfall k w d l ≤ k * d := by
  unfold shortfall
  have := mul_nonneg (mul_nonneg (sub_nonneg.mpr hk) hw) (sub_nonneg.mpr hl)
  linarith

/-- an LRMES that is not finite gives an SRISK that is not finite -/
theorem formula_nonfin {k w d : ℝ} (hw : w ≠ 0) {y : XR} (hy : ∀ r, y ≠ .fin r) {r : ℝ} :
    sriskFormula (.fin k) (.fin w) (.fin d) y ≠ .fin r := by
  have hm : ∀ (c : ℝ) (y : XR), (∀ r, y ≠ .fin r) → ∀ r, XR.fin c * y ≠ .fin r := by
    intro c y hy r
    cases y with
    | nan => simp
    | fin r => exact absurd rfl (hy r)
    | pinf => show XR.infSign c ≠ _; unfold XR.infSign; split_ifs <;> simp
    | ninf => show XR.infSign (-c) ≠ _; unfold XR.infSign; split_ifs <;> simp
  have ha : ∀ y : XR, (∀ r, y ≠ .fin r) → ∀ c r, XR.fin c + y - .fin 1 ≠ .fin r := by
    intro y hy c r
    cases y with
    | nan => simp
    | fin r => exact absurd rfl (hy r)
    | pinf => intro h; cases h
    | ninf => intro h; cases h
  unfold sriskFormula
  simp only [XR.one_def, XR.fin_add, XR.fin_div _ hw, XR.fin_mul, XR.fin_sub]
  exact hm _ _ (ha _ (hm _ _ hy) _) r

end SriskRun
open SriskRun

/-- C189 (one firm). On usable series (real returns above -1, not all equal), `SRISK.estimate` raises `RuntimeError` (the
correlation estimation failed) or returns `k D - (1-k) W (1 - LRMES)` with the LRMES of a new
`LongRunMarginalExpectedShortfall` object of the same series and options; a finite SRISK is at most `k D`, the prudential capital on
the debt (for `W ≥ 0`, `k ≤ 1`). -/
theorem C189_single (E : Machine) (hE : Machine.Fits E) {firm market : Nd} {w d : ℝ} {wn dn : Bool} {s : SriskObj}
    (h : sriskCtor firm market (.float ⟨.fin w, wn⟩) (.float ⟨.fin d, dn⟩) = .ok s) (hw : w ≠ 0)
    (hf : UsableReturns firm.vec) (hm : UsableReturns market.vec) (k : ℝ) (kn : Bool) (o : LrmesOpts) :
    (lrmesFn E firm.vec market.vec o.h o.S o.C o.seed = .error .runtimeError ∧
      sriskEstimate (lrmesFn E) s ⟨.fin k, kn⟩ o false = .error .runtimeError) ∨
    ∃ (y r : PyFloat), lrmesFn E firm.vec market.vec o.h o.S o.C o.seed = .ok y ∧
      sriskEstimate (lrmesFn E) s ⟨.fin k, kn⟩ o false = .ok (.scalar r) ∧
      ∀ l, y.val = .fin l → r.val = .fin (k * d - (1 - k) * w * (1 - l)) ∧
        (0 ≤ w → k ≤ 1 → k * d - (1 - k) * w * (1 - l) ≤ k * d) := by
  have hsh : ∃ n, firm.shape = [n] ∧ market.shape = [n] ∧ s = ⟨firm, market, .float ⟨.fin w, wn⟩, .float ⟨.fin d, dn⟩, 1, n⟩ := by
    by_cases hn : s.nFirms = 1
    · obtain ⟨n, w', d', h1, h2, h3, h4, h5⟩ := ctor_single h hn
      exact ⟨n, h1, h2, h5⟩
    · obtain ⟨_, _, _, _, _, _, _, _, h, _⟩ := ctor_multi h hn
      cases h
  obtain ⟨n, h1, h2, rfl⟩ := hsh
  have hlen : firm.vec.length = n := by simp [Nd.vec, h1]
  have hlen' : market.vec.length = n := by simp [Nd.vec, h2]
  have hr : runLrmes (lrmesFn E) o firm.vec market = lrmesFn E firm.vec market.vec o.h o.S o.C o.seed := by
    unfold runLrmes; rw [if_neg (by simp [h2, hlen])]
  rcases lrmes_usable hE (by rw [hlen, hlen']) hf hm o.h o.S o.C o.seed with he | ⟨y, he, hy⟩
  · left
    refine ⟨he, ?_⟩
    unfold sriskEstimate
    simp only [if_true, bind, Except.bind, hr, he]
  · right
    refine ⟨y, ⟨sriskFormula (.fin k) (.fin w) (.fin d) y.val, wn || dn || kn || y.isNumpy⟩, he, ?_, ?_⟩
    · unfold sriskEstimate
      simp only [if_true, bind, Except.bind, hr, he]
      rw [if_neg (by rintro ⟨_, h0⟩; rw [XR.zero_def, XR.fin_inj] at h0; exact hw h0)]
      simp
    · intro l hl
      simp only [hl]
      exact ⟨by rw [sriskFormula_fin hw]; rfl, fun h0 hk => shortfall_le hk h0 (hy l hl)⟩

/-- C189 (several firms). On usable series for every firm and the market, `SRISK.estimate` raises `RuntimeError` (some
correlation estimation failed) or returns one value per firm, each from the firm's own LRMES object; finite values are at most
`k D_i`, and the aggregate of finite values is at most `k` times the total debt (`W > 0`, `D ≥ 0`, `0 ≤ k ≤ 1`). -/
theorem C189_multi (E : Machine) (hE : Machine.Fits E) {firm market : Nd} {w d : Nd} {s : SriskObj}
    (h : sriskCtor firm market (.nd w) (.nd d) = .ok s) (n m : ℕ) (hshape : firm.shape = [n, m]) (hms : market.shape = [n])
    (hf : ∀ i < m, UsableReturns (firm.column i)) (hm : UsableReturns market.vec) (k : ℝ) (kn : Bool) (o : LrmesOpts) :
    sriskEstimate (lrmesFn E) s ⟨.fin k, kn⟩ o false = .error .runtimeError ∨
    ∃ out, sriskEstimate (lrmesFn E) s ⟨.fin k, kn⟩ o false = .ok (.array out) ∧ out.length = m ∧
      (∀ i < m, ∃ y : PyFloat, lrmesFn E (firm.column i) market.vec o.h o.S o.C o.seed = .ok y ∧
        ∀ wi di l : ℝ, 0 < wi → w.at_ [i] = .fin wi → d.at_ [i] = .fin di → y.val = .fin l →
          out[i]? = some (.fin (k * di - (1 - k) * wi * (1 - l))) ∧
          (k ≤ 1 → k * di - (1 - k) * wi * (1 - l) ≤ k * di)) ∧
      ∀ (W D : ℕ → ℝ) (v : List ℝ), 0 ≤ k → k ≤ 1 → (∀ i < m, 0 < W i ∧ 0 ≤ D i ∧ w.at_ [i] = .fin (W i) ∧
          d.at_ [i] = .fin (D i)) → out = v.map XR.fin →
        ∃ A : ℝ, sriskEstimate (lrmesFn E) s ⟨.fin k, kn⟩ o true = .ok (.scalar ⟨.fin A, true⟩) ∧
          0 ≤ A ∧ A ≤ k * ((List.range m).map D).sum := by
  have hn : s.nFirms ≠ 1 := by
    intro hn
    obtain ⟨_, _, _, h0, _⟩ := ctor_single h hn
    rw [hshape] at h0; simp at h0
  obtain ⟨n', m', rest, w', d', h1, h2, h3, h4, h5, h6, h7, h8⟩ := ctor_multi h hn
  rw [hshape] at h1
  have e1 : n = n' ∧ m = m' := by simpa using h1
  obtain ⟨rfl, rfl⟩ := e1
  cases h4; cases h5
  have hnf : s.nFirms = m := by rw [h8]
  have hmk : s.market = market := by rw [h8]
  have hfi : s.firm = firm := by rw [h8]
  have hW : s.W = .nd w := by rw [h8]
  have hD : s.D = .nd d := by rw [h8]
  have hcol : ∀ i, (firm.column i).length = n := by intro i; simp [Nd.column, hshape]
  have hmv : market.vec.length = n := by simp [Nd.vec, hms]
  have hr : ∀ i, runLrmes (lrmesFn E) o (firm.column i) market
      = lrmesFn E (firm.column i) market.vec o.h o.S o.C o.seed := by
    intro i; unfold runLrmes; rw [if_neg (by simp [hms, hcol])]
  have hall : ∀ i < m, lrmesFn E (firm.column i) market.vec o.h o.S o.C o.seed = .error .runtimeError ∨
      ∃ y, lrmesFn E (firm.column i) market.vec o.h o.S o.C o.seed = .ok y ∧ ∀ l, y.val = .fin l → l ≤ 1 :=
    fun i hi => lrmes_usable hE (by rw [hcol, hmv]) (hf i hi) hm o.h o.S o.C o.seed
  rcases mapM_cases (f := fun i => runLrmes (lrmesFn E) o (s.firm.column i) s.market) (e := .runtimeError)
      (l := List.range s.nFirms) (by
        intro i hi
        rw [List.mem_range, hnf] at hi
        simp only [hfi, hmk, hr]
        rcases hall i hi with h | ⟨y, h, _⟩
        · exact .inl h
        · exact .inr ⟨y, h⟩) with he | ⟨ls, he⟩
  · left
    unfold sriskEstimate
    rw [if_neg hn]
    simp only [bind, Except.bind, he]
  · right
    have hout : ∃ out, sriskEstimate (lrmesFn E) s ⟨.fin k, kn⟩ o false = .ok (.array out) := by
      unfold sriskEstimate
      rw [if_neg hn]
      simp only [bind, Except.bind, he, hW, hD]
      exact ⟨List.zipWith (fun (wd : XR × XR) (l : PyFloat) => sriskFormula (.fin k) wd.1 wd.2 l.val)
        (List.zip w.vec d.vec) ls, by simp⟩
    obtain ⟨out, hout⟩ := hout
    obtain ⟨hl, hval⟩ := C29_multi (lrmesFn E) h k kn o hout
    have hl' : out.length = m := by rw [hl, hshape]; rfl
    have hper : ∀ i < m, ∃ y : PyFloat, lrmesFn E (firm.column i) market.vec o.h o.S o.C o.seed = .ok y ∧
        ∀ wi di l : ℝ, 0 < wi → w.at_ [i] = .fin wi → d.at_ [i] = .fin di → y.val = .fin l →
          out[i]? = some (.fin (k * di - (1 - k) * wi * (1 - l))) ∧
          (k ≤ 1 → k * di - (1 - k) * wi * (1 - l) ≤ k * di) := by
      intro i hi
      obtain ⟨y, hy, hv⟩ := hval i (by omega)
      refine ⟨y, hy, fun wi di l hw e1 e2 e3 => ⟨(hv wi di l e1 e2 e3).1 hw.ne', fun hk => ?_⟩⟩
      rcases hall i hi with h0 | ⟨y', h0, hle⟩
      · rw [hy] at h0; cases h0
      · rw [hy] at h0; cases h0
        exact shortfall_le hk hw.le (hle l e3)
    refine ⟨out, hout, hl', hper, ?_⟩
    intro W D v hk0 hk1 hWD hv
    subst hv
    obtain ⟨A, hA, hsum, hA0, -⟩ := C31_aggregate (lrmesFn E) s ⟨.fin k, kn⟩ o v hout
    refine ⟨A, hA, hA0, ?_⟩
    rw [hsum, ← List.sum_map_mul_left]
    have hvl : v.length = m := by simpa using hl'
    have e : (v.map fun x => max x 0) = (List.range m).map fun i => max (v.getD i 0) 0 := by
      apply List.ext_getElem
      · simp [hvl]
      · intro i h1 h2
        simp only [List.length_map, List.length_range] at h1 h2
        simp [List.getD_eq_getElem?_getD, List.getElem?_eq_getElem h1]
    rw [e]
    apply List.sum_le_sum
    intro i hi
    rw [List.mem_range] at hi
    obtain ⟨hw, hd, ew, ed⟩ := hWD i hi
    apply max_le _ (mul_nonneg hk0 hd)
    have hvi : v[i]? = some (v.getD i 0) := by
      simp [List.getD_eq_getElem?_getD, List.getElem?_eq_getElem (show i < v.length by omega)]
    obtain ⟨ls', _, _, hform⟩ := multi_out hn hW hD (by rw [hnf]; exact h6) (by rw [hnf]; exact h7) hout
    obtain ⟨y, -, hrun, hform⟩ := hform i (by omega)
    rw [hfi, hmk, hr] at hrun
    rw [List.getElem?_map, hvi, Option.map_some, ew, ed, Option.some_inj] at hform
    rcases hall i hi with h0 | ⟨y', h0, hle⟩
    · rw [hrun] at h0; cases h0
    · rw [hrun] at h0; cases h0
      have hyf : ∃ l, y.val = .fin l := by
        by_contra hne
        push Not at hne
        exact formula_nonfin hw.ne' hne hform.symm
      obtain ⟨l, hyl⟩ := hyf
      rw [hyl, sriskFormula_fin hw.ne', XR.fin_inj] at hform
      rw [hform]
      exact shortfall_le hk1 hw.le (hle l hyl)

namespace SriskRun

/-- LRMES of unusable series raises -/
theorem lrmes_unusable {E : Machine} (hE : Machine.Fits E) {firm market : List XR} (hne : firm ≠ [])
    (hl : firm.length = market.length) (h : ¬ UsableReturns firm ∨ ¬ UsableReturns market) (n S : ℕ) (C : XR) (seed : ℕ) :
    lrmesFn E firm market n S C seed = .error .valueError := by
  obtain ⟨m1, m2, -, -⟩ := hE firm market
  have hcase : ∀ l : List XR, ¬ UsableReturns l →
      (∃ x ∈ l, x = .nan ∨ x = .pinf ∨ x = .ninf ∨ ∃ r : ℝ, x = .fin r ∧ r ≤ -1) ∨ ∀ x ∈ l, ∀ y ∈ l, x = y := by
    intro l hu
    by_contra hc
    push Not at hc
    obtain ⟨h1, x, hx, y, hy, hxy⟩ := hc
    refine hu ⟨fun x hx => ?_, x, hx, y, hy, hxy⟩
    obtain ⟨g1, g2, g3, g4⟩ := h1 x hx
    cases x with
    | nan => exact absurd rfl g1
    | pinf => exact absurd rfl g2
    | ninf => exact absurd rfl g3
    | fin r => exact ⟨r, rfl, g4 r rfl⟩
  have hb : (∃ x ∈ firm ++ market, x = .nan ∨ x = .pinf ∨ x = .ninf ∨ ∃ r : ℝ, x = .fin r ∧ r ≤ -1) ∨
      (∀ x ∈ firm, ∀ y ∈ firm, x = y) ∨ (∀ x ∈ market, ∀ y ∈ market, x = y) := by
    rcases h with h | h
    · rcases hcase _ h with ⟨x, hx, hh⟩ | hh
      · exact .inl ⟨x, List.mem_append_left _ hx, hh⟩
      · exact .inr (.inl hh)
    · rcases hcase _ h with ⟨x, hx, hh⟩ | hh
      · exact .inl ⟨x, List.mem_append_right _ hx, hh⟩
      · exact .inr (.inr hh)
  obtain ⟨o, ho, hr⟩ := (C181_rejects E.cppA E.cppM E.optu E.opt firm market (E.mem firm market).1.1
    (E.mem firm market).1.2 (E.mem firm market).2.1 (E.mem firm market).2.2 ⟨C, E.draw seed S n⟩).2.2 hne hl m1 m2 hb
  unfold lrmesFn
  rw [ho]
  exact hr

theorem mapM_raises {α β : Type} {f : α → Except PyErr β} {P : PyErr → Prop} : ∀ {l : List α},
    (∀ a ∈ l, (∃ e, f a = .error e ∧ P e) ∨ ∃ b, f a = .ok b) → (∃ a ∈ l, ∃ e, f a = .error e) →
    ∃ e, l.mapM f = .error e ∧ P e
  | [], _, h => by obtain ⟨_, h, _⟩ := h; cases h
  | a :: t, h, hex => by
    rw [List.mapM_cons]
    rcases h a (by simp) with ⟨e, ha, he⟩ | ⟨b, ha⟩
    · exact ⟨e, by rw [ha]; rfl, he⟩
    · obtain ⟨e, ht, he⟩ := mapM_raises (l := t) (fun x hx => h x (by simp [hx])) (by
        obtain ⟨c, hc, e, hce⟩ := hex
        rcases List.mem_cons.mp hc with rfl | hc
        · rw [ha] at hce; cases hce
        · exact ⟨c, hc, e, hce⟩)
      exact ⟨e, by rw [ha, ht]; rfl, he⟩

end SriskRun

/-- C189 (unusable series). One firm: a firm or market series with a return that is not a real number above -1, or with all
returns equal, makes `estimate` raise `ValueError`. Several firms: one such firm (or market) series makes the whole call raise
(`ValueError`, or `RuntimeError` from the correlation estimation of an earlier firm), whatever the other firms' data are: no
SRISK of any firm is returned. -/
theorem C189_rejects (E : Machine) (hE : Machine.Fits E) {firm market : Nd} {W D : Money} {s : SriskObj}
    (h : sriskCtor firm market W D = .ok s) (k : PyFloat) (o : LrmesOpts) (agg : Bool) (n : ℕ) (hn : 0 < n) :
    (firm.shape = [n] → ¬ UsableReturns firm.vec ∨ ¬ UsableReturns market.vec →
      sriskEstimate (lrmesFn E) s k o agg = .error .valueError) ∧
    ∀ m, firm.shape = [n, m] → market.shape = [n] → (∃ i < m, ¬ UsableReturns (firm.column i)) ∨ ¬ UsableReturns market.vec →
      sriskEstimate (lrmesFn E) s k o agg = .error .valueError ∨ sriskEstimate (lrmesFn E) s k o agg = .error .runtimeError := by
  constructor
  · intro hsh hbad
    have hn1 : s.nFirms = 1 := by
      by_contra hc
      obtain ⟨_, _, _, _, _, h0, _⟩ := ctor_multi h hc
      rw [hsh] at h0; simp at h0
    obtain ⟨n', w, d, h1, h2, rfl, rfl, rfl⟩ := ctor_single h hn1
    have e : n = n' := by rw [hsh] at h1; simpa using h1
    subst e
    have hlen : firm.vec.length = n := by simp [Nd.vec, h1]
    have hlen' : market.vec.length = n := by simp [Nd.vec, h2]
    have hr : runLrmes (lrmesFn E) o firm.vec market = .error .valueError := by
      unfold runLrmes
      rw [if_neg (by simp [h2, hlen])]
      exact lrmes_unusable hE (List.length_pos_iff.mp (by omega)) (by omega) hbad _ _ _ _
    unfold sriskEstimate
    simp only [if_true, bind, Except.bind, hr]
  · intro m hshape hms hbad
    have hn1 : s.nFirms ≠ 1 := by
      intro hn
      obtain ⟨_, _, _, h0, _⟩ := ctor_single h hn
      rw [hshape] at h0; simp at h0
    obtain ⟨n', m', rest, w', d', h1, h2, h3, h4, h5, h6, h7, h8⟩ := ctor_multi h hn1
    rw [hshape] at h1
    have e1 : n = n' ∧ m = m' := by simpa using h1
    obtain ⟨rfl, rfl⟩ := e1
    have hnf : s.nFirms = m := by rw [h8]
    have hmk : s.market = market := by rw [h8]
    have hfi : s.firm = firm := by rw [h8]
    have hcol : ∀ i, (firm.column i).length = n := by intro i; simp [Nd.column, hshape]
    have hmv : market.vec.length = n := by simp [Nd.vec, hms]
    have hr : ∀ i, runLrmes (lrmesFn E) o (firm.column i) market
        = lrmesFn E (firm.column i) market.vec o.h o.S o.C o.seed := by
      intro i; unfold runLrmes; rw [if_neg (by simp [hms, hcol])]
    have hun : ∀ i, ¬ UsableReturns (firm.column i) ∨ ¬ UsableReturns market.vec →
        lrmesFn E (firm.column i) market.vec o.h o.S o.C o.seed = .error .valueError := fun i hi =>
      lrmes_unusable hE (List.length_pos_iff.mp (by rw [hcol]; exact hn)) (by rw [hcol, hmv]) hi _ _ _ _
    obtain ⟨e, he, hP⟩ := mapM_raises (f := fun i => runLrmes (lrmesFn E) o (s.firm.column i) s.market)
      (P := fun e => e = .valueError ∨ e = .runtimeError) (l := List.range s.nFirms) (by
        intro i hi
        simp only [hfi, hmk, hr]
        by_cases hu : UsableReturns (firm.column i) ∧ UsableReturns market.vec
        · rcases lrmes_usable hE (by rw [hcol, hmv]) hu.1 hu.2 o.h o.S o.C o.seed with h | ⟨y, h, _⟩
          · exact .inl ⟨_, h, .inr rfl⟩
          · exact .inr ⟨y, h⟩
        · exact .inl ⟨_, hun i (not_and_or.mp hu), .inl rfl⟩) (by
        simp only [hfi, hmk, hr, List.mem_range, hnf]
        rcases hbad with ⟨i, hi, hb⟩ | hb
        · exact ⟨i, hi, _, hun i (.inl hb)⟩
        · exact ⟨0, by omega, _, hun 0 (.inr hb)⟩)
    have hgoal : sriskEstimate (lrmesFn E) s k o agg = .error e := by
      unfold sriskEstimate
      rw [if_neg hn1]
      simp only [bind, Except.bind, he]
    rcases hP with rfl | rfl
    · exact .inl hgoal
    · exact .inr hgoal

/-- C189 (log returns). The documentation of `SRISK` asks for log returns, but the LRMES object takes its logarithm again: a firm
with raw returns `r` whose log returns `log(1 + r)` are passed is estimated from `100 log(1 + log(1 + r))`, strictly below the
percentage log return wherever `r ≠ 0`; and a day with a raw return of `1/e - 1` (about -63%) or less makes `estimate` raise
`ValueError`, although raw returns above -1 are usable. -/
theorem C189_log_returns (E : Machine) (hE : Machine.Fits E) (r q : List ℝ) (hl : r.length = q.length)
    (hr : ∀ x ∈ r, -1 < x) (hq : ∀ x ∈ q, -1 < x) :
    ((∀ x ∈ r, Real.exp (-1) - 1 < x) → ∀ x1 x2 x3 x4 : List XR, ∃ o,
      LrmesObj.new (r.map fun x => .fin (Real.log (1 + x))) (q.map fun x => .fin (Real.log (1 + x))) x1 x2 x3 x4 = .ok o ∧
      ∀ (i : ℕ) (x : ℝ), r[i]? = some x → ∃ y : ℝ, o.model1.returns[i]? = some (.fin y) ∧
        y = 100 * Real.log (1 + Real.log (1 + x)) ∧ (x ≠ 0 → y < 100 * Real.log (1 + x))) ∧
    ∀ (firm market : Nd) (W D : Money) (s : SriskObj) (k : PyFloat) (o : LrmesOpts) (agg : Bool),
      sriskCtor firm market W D = .ok s → firm.shape = [r.length] →
      firm.vec = r.map (fun x => .fin (Real.log (1 + x))) → market.vec = q.map (fun x => .fin (Real.log (1 + x))) →
      (∃ x ∈ r ++ q, x ≤ Real.exp (-1) - 1) → sriskEstimate (lrmesFn E) s k o agg = .error .valueError := by
  constructor
  · intro hbig x1 x2 x3 x4
    obtain ⟨o, ho, -, -, -, -, -, h1, -⟩ := (C180_new (r.map fun x => .fin (Real.log (1 + x)))
      (q.map fun x => .fin (Real.log (1 + x))) x1 x2 x3 x4).2 (by simpa using hl)
    refine ⟨o, ho, fun i x hx => ?_⟩
    have hmem : x ∈ r := List.mem_of_getElem? hx
    have hlog : -1 < Real.log (1 + x) := by
      rw [Real.lt_log_iff_exp_lt (by linarith [hr x hmem])]
      linarith [hbig x hmem]
    refine ⟨_, h1 i (Real.log (1 + x)) (by simp [List.getElem?_map, hx]) hlog, rfl, fun hx0 => ?_⟩
    have hne : Real.log (1 + x) ≠ 0 := by
      intro h
      rcases Real.log_eq_zero.mp h with h | h | h
      · linarith [hr x hmem]
      · exact hx0 (by linarith)
      · linarith [hr x hmem]
    have := Real.log_lt_sub_one_of_pos (x := 1 + Real.log (1 + x)) (by linarith) (by
      intro h; exact hne (by linarith))
    linarith
  · intro firm market W D s k o agg hc hsh hf hm ⟨x, hx, hxe⟩
    have hbad : ∀ l : List ℝ, (∀ x ∈ l, -1 < x) → x ∈ l →
        ¬ UsableReturns (l.map fun x => .fin (Real.log (1 + x))) := by
      intro l hl hx hu
      obtain ⟨z, hz, hz1⟩ := hu.1 (.fin (Real.log (1 + x))) (List.mem_map.mpr ⟨x, hx, rfl⟩)
      rw [XR.fin_inj] at hz
      rw [← hz, Real.lt_log_iff_exp_lt (by linarith [hl x hx])] at hz1
      linarith
    refine (C189_rejects E hE hc k o agg r.length ?_).1 hsh ?_
    · rcases List.mem_append.mp hx with h | h
      · exact List.length_pos_of_mem h
      · rw [hl]; exact List.length_pos_of_mem h
    · rw [hf, hm]
      rcases List.mem_append.mp hx with h | h
      · exact .inl (hbad r hr h)
      · exact .inr (hbad q hq h)

/-- a machine, and a one-firm and a two-firm input, that meet the hypotheses -/
theorem SriskRun.demo : ∃ E : Machine, Machine.Fits E ∧
    ∃ (f1 f2 mk w d : Nd) (s1 s2 : SriskObj), sriskCtor f1 mk (.float ⟨.fin 10, false⟩) (.float ⟨.fin 90, false⟩) = .ok s1 ∧
      sriskCtor f2 mk (.nd w) (.nd d) = .ok s2 ∧ f1.shape = [3] ∧ f2.shape = [3, 2] ∧ mk.shape = [3] ∧
      UsableReturns f1.vec ∧ UsableReturns mk.vec ∧ (∀ i < 2, UsableReturns (f2.column i)) ∧
      ∀ i < 2, w.at_ [i] = .fin 10 ∧ d.at_ [i] = .fin 90 := by
  obtain ⟨v, hv⟩ : ∃ v : ℕ → XR, v = fun t => ([.fin 0, .fin (1 / 10), .fin (-1 / 10)] : List XR).getD t 0 := ⟨_, rfl⟩
  have hvl : (List.range 3).map v = [.fin 0, .fin (1 / 10), .fin (-1 / 10)] := by rw [hv]; rfl
  refine ⟨⟨true, true, Crash.stay, Crash.stay, fun _ S h _ => List.replicate S (List.replicate h 0),
    fun f m => ((f, f), (m, m))⟩, fun _ _ => ⟨rfl, rfl, rfl, rfl⟩,
    ⟨[3], fun i => v (i.headD 0)⟩, ⟨[3, 2], fun i => v (i.headD 0)⟩, ⟨[3], fun i => v (i.headD 0)⟩, ⟨[2], fun _ => .fin 10⟩,
    ⟨[2], fun _ => .fin 90⟩, ⟨⟨[3], fun i => v (i.headD 0)⟩, ⟨[3], fun i => v (i.headD 0)⟩, .float ⟨.fin 10, false⟩,
      .float ⟨.fin 90, false⟩, 1, 3⟩, ⟨⟨[3, 2], fun i => v (i.headD 0)⟩, ⟨[3], fun i => v (i.headD 0)⟩, .nd ⟨[2], fun _ => .fin 10⟩,
      .nd ⟨[2], fun _ => .fin 90⟩, 2, 3⟩, by simp [sriskCtor], by simp [sriskCtor], rfl, rfl, rfl, ?_, ?_, ?_, fun _ _ => ⟨rfl, rfl⟩⟩
  · show UsableReturns ((List.range 3).map v); rw [hvl]; exact LrmesRun.demo_usable
  · show UsableReturns ((List.range 3).map v); rw [hvl]; exact LrmesRun.demo_usable
  · intro i _
    show UsableReturns ((List.range 3).map v); rw [hvl]; exact LrmesRun.demo_usable

/-! ### Concrete cases of the theorems above -/

/-- One firm with equity 10 and debt 90, three days of returns. -/
example : ∃ (E : Machine) (firm market : Nd) (s : SriskObj), Machine.Fits E ∧ ∀ o : LrmesOpts,
    (lrmesFn E firm.vec market.vec o.h o.S o.C o.seed = .error .runtimeError ∧
      sriskEstimate (lrmesFn E) s ⟨.fin 0.08, false⟩ o false = .error .runtimeError) ∨
    ∃ r : PyFloat, sriskEstimate (lrmesFn E) s ⟨.fin 0.08, false⟩ o false = .ok (.scalar r) := by
  obtain ⟨E, hE, f1, _, mk, _, _, s1, _, h1, _, _, _, _, hf, hm, _⟩ := SriskRun.demo
  refine ⟨E, f1, mk, s1, hE, fun o => ?_⟩
  rcases C189_single E hE h1 (by norm_num) hf hm 0.08 false o with h | ⟨y, r, _, h, _⟩
  · exact Or.inl h
  · exact Or.inr ⟨r, h⟩
/-- Two firms, each with equity 10 and debt 90: if the array of capital shortfalls is finite, the aggregate is between zero and
`0.08 * 180`. -/
example : ∃ (E : Machine) (s : SriskObj), Machine.Fits E ∧ ∀ (o : LrmesOpts) (v : List ℝ),
    sriskEstimate (lrmesFn E) s ⟨.fin 0.08, false⟩ o false = .ok (.array (v.map XR.fin)) →
    ∃ A : ℝ, sriskEstimate (lrmesFn E) s ⟨.fin 0.08, false⟩ o true = .ok (.scalar ⟨.fin A, true⟩) ∧ 0 ≤ A ∧
      A ≤ 0.08 * ((List.range 2).map fun _ => (90 : ℝ)).sum := by
  obtain ⟨E, hE, _, f2, mk, w, d, _, s2, _, h2, _, hs, hms, _, hm, hc, hw⟩ := SriskRun.demo
  refine ⟨E, s2, hE, fun o v hv => ?_⟩
  rcases C189_multi E hE h2 3 2 hs hms hc hm 0.08 false o with h | ⟨out, h, _, _, hA⟩
  · rw [h] at hv; cases hv
  · rw [h] at hv
    have : out = v.map XR.fin := by injection hv with hv; injection hv
    exact hA (fun _ => 10) (fun _ => 90) v (by norm_num) (by norm_num)
      (fun i hi => ⟨by norm_num, by norm_num, (hw i hi).1, (hw i hi).2⟩) this

end
end Frds.Props
