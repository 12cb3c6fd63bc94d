import Verif.Spec.KernelCalls
import Verif.Model.KernelCalls
import Verif.Spec.Garch
import Verif.Lemmas.Garch
import Mathlib.Data.List.GetD
import Mathlib.Analysis.Complex.ExponentialBounds

/-! Properties C171 and C172: direct calls of the static variance methods. -/
set_option linter.unusedSimpArgs false

namespace Frds.Props
noncomputable section
open Frds Frds.Model Frds.Spec Classical

namespace KernelCalls
open Frds.Model.KernelCalls
variable {α : Type}

/-- a loop that may stop with an error -/
def genLoop (f : ℕ → α → α → Except PyErr α) : ℕ → α → List α → Except PyErr (List α)
  | _, _, [] => .ok []
  | t, s, r :: rs =>
    match f t s r with
    | .error e => .error e
    | .ok s' => match genLoop f (t + 1) s' rs with
      | .error e => .error e
      | .ok l => .ok (s' :: l)

theorem genLoop_ok {f : ℕ → α → α → Except PyErr α} : ∀ {rs : List α} {t : ℕ} {s : α} {out : List α},
    genLoop f t s rs = .ok out → out.length = rs.length ∧
      ∀ i r x, rs[i]? = some r → (s :: out)[i]? = some x → ∃ y, out[i]? = some y ∧ f (t + i) x r = .ok y
  | [], t, s, out, h => by
    simp only [genLoop, Except.ok.injEq] at h
    subst h
    simp
  | r :: rs, t, s, out, h => by
    rw [genLoop] at h
    cases hf : f t s r with
    | error e => rw [hf] at h; cases h
    | ok s' =>
      rw [hf] at h
      simp only at h
      cases hg : genLoop f (t + 1) s' rs with
      | error e => rw [hg] at h; cases h
      | ok l =>
        rw [hg] at h
        simp only [Except.ok.injEq] at h
        subst h
        obtain ⟨h1, h2⟩ := genLoop_ok hg
        refine ⟨by simp [h1], fun i r' x hr hx => ?_⟩
        cases i with
        | zero =>
          simp only [List.getElem?_cons_zero, Option.some.injEq] at hr hx
          subst hr hx
          exact ⟨s', by simp, hf⟩
        | succ i =>
          simp only [List.getElem?_cons_succ] at hr hx
          obtain ⟨y, e1, e2⟩ := h2 i r' x hr hx
          refine ⟨y, by simpa using e1, ?_⟩
          rw [show t + (i + 1) = t + 1 + i by omega]
          exact e2

theorem genLoop_err {f : ℕ → α → α → Except PyErr α} {e : PyErr} : ∀ {rs : List α} {t : ℕ} {s : α},
    genLoop f t s rs = .error e → ∃ i x r, i < rs.length ∧ rs[i]? = some r ∧ f (t + i) x r = .error e
  | [], t, s, h => by cases h
  | r :: rs, t, s, h => by
    rw [genLoop] at h
    cases hf : f t s r with
    | error e' =>
      rw [hf] at h
      simp only [Except.error.injEq] at h
      subst h
      exact ⟨0, s, r, by simp, by simp, hf⟩
    | ok s' =>
      rw [hf] at h
      simp only at h
      cases hg : genLoop f (t + 1) s' rs with
      | error e' =>
        rw [hg] at h
        simp only [Except.error.injEq] at h
        subst h
        obtain ⟨i, x, r', h1, h2, h3⟩ := genLoop_err hg
        refine ⟨i + 1, x, r', by simpa using h1, by simpa using h2, ?_⟩
        rw [show t + (i + 1) = t + 1 + i by omega]
        exact h3
      | ok l => rw [hg] at h; cases h

/-- one step of the GARCH loop -/
def garchF (E : Elem α) (p : GarchVar) (B : List (List XR)) (t : ℕ) (s r : α) : Except PyErr α := do
  let s1 ← E.store (p.omega + p.alpha * E.sq r + p.beta * E.val s)
  let b ← boundsAt B t
  E.store (boundsCheckPy (E.val s1) b)

def gjrF (E : Elem α) (p : GjrVar) (B : List (List XR)) (t : ℕ) (s r : α) : Except PyErr α := do
  let s1 ← gjrStep E p s r
  let b ← boundsAt B t
  E.store (boundsCheckPy (E.val s1) b)

theorem garchLoop_gen (E : Elem α) (p : GarchVar) (B : List (List XR)) : ∀ (rs : List α) (t : ℕ) (s : α),
    garchLoop E p B t s rs = genLoop (garchF E p B) t s rs
  | [], t, s => rfl
  | r :: rs, t, s => by
    simp only [garchLoop, genLoop, garchF, garchLoop_gen E p B rs, bind, Except.bind, pure, Except.pure]
    cases E.store (p.omega + p.alpha * E.sq r + p.beta * E.val s) with
    | error e => rfl
    | ok s1 =>
      simp only
      cases boundsAt B t with
      | error e => rfl
      | ok b =>
        simp only
        cases E.store (boundsCheckPy (E.val s1) b) with
        | error e => rfl
        | ok s2 =>
          simp only
          cases genLoop (garchF E p B) (t + 1) s2 rs <;> rfl

theorem gjrLoop_gen (E : Elem α) (p : GjrVar) (B : List (List XR)) : ∀ (rs : List α) (t : ℕ) (s : α),
    gjrLoop E p B t s rs = genLoop (gjrF E p B) t s rs
  | [], t, s => rfl
  | r :: rs, t, s => by
    simp only [gjrLoop, genLoop, gjrF, gjrLoop_gen E p B rs, bind, Except.bind, pure, Except.pure]
    cases gjrStep E p s r with
    | error e => rfl
    | ok s1 =>
      simp only
      cases boundsAt B t with
      | error e => rfl
      | ok b =>
        simp only
        cases E.store (boundsCheckPy (E.val s1) b) with
        | error e => rfl
        | ok s2 =>
          simp only
          cases genLoop (gjrF E p B) (t + 1) s2 rs <;> rfl

theorem forecastLoop_gen (E : Elem α) (p : GjrVar) : ∀ (rs : List α) (t : ℕ) (s : α),
    forecastLoop E p s rs = genLoop (fun _ => gjrStep E p) t s rs
  | [], t, s => rfl
  | r :: rs, t, s => by
    simp only [forecastLoop, genLoop, bind, Except.bind, pure, Except.pure]
    cases gjrStep E p s r with
    | error e => rfl
    | ok s1 =>
      simp only [forecastLoop_gen E p rs (t + 1)]
      cases genLoop (fun _ => gjrStep E p) (t + 1) s1 rs <;> rfl

/-- the first two entries of a row -/
def firstTwo (row : List XR) : XR × XR := (row.getD 0 .nan, row.getD 1 .nan)

theorem boundsAt_eq {B : List (List XR)} (h : ∀ row ∈ B, 2 ≤ row.length) (t : ℕ) :
    boundsAt B t = match (B.map firstTwo)[t]? with
      | some b => .ok b
      | none => .error .indexError := by
  unfold boundsAt
  rw [List.getElem?_map]
  cases hb : B[t]? with
  | none => rfl
  | some row =>
    have := h row (List.mem_of_getElem? hb)
    match row, this with
    | lo :: hi :: rest, _ => rfl

/-- a float64 loop is the loop of the model of the estimation -/
theorem floatLoop {f : ℕ → XR → XR → Except PyErr XR} {next : XR → XR → XR} {bs : List (XR × XR)}
    (hf : ∀ t s r, f t s r = match bs[t]? with
      | some b => .ok (boundsCheckPy (next r s) b)
      | none => .error .indexError) : ∀ (rs : List XR) (t : ℕ) (s : XR),
    genLoop f t s rs = if rs ≠ [] ∧ bs.length < t + rs.length then .error .indexError
      else .ok (varLoop next boundsCheckPy s (List.zip rs (bs.drop t)))
  | [], t, s => by simp [genLoop, varLoop]
  | r :: rs, t, s => by
    rw [genLoop, hf]
    cases hb : bs[t]? with
    | none =>
      have := List.getElem?_eq_none_iff.mp hb
      simp only
      rw [if_pos ⟨by simp, by simp only [List.length_cons]; omega⟩]
    | some b =>
      have hlt : t < bs.length := (List.getElem?_eq_some_iff.mp hb).1
      have hbe : bs[t] = b := (List.getElem?_eq_some_iff.mp hb).2
      simp only
      rw [floatLoop hf rs (t + 1)]
      by_cases hc : bs.length < t + 1 + rs.length
      · have hrs : rs ≠ [] := by rintro rfl; simp at hc; omega
        rw [if_pos ⟨hrs, hc⟩, if_pos ⟨by simp, by simp only [List.length_cons]; omega⟩]
      · rw [if_neg (fun h => hc h.2), if_neg (fun h => hc (by simpa [add_assoc, add_comm 1] using h.2))]
        simp only
        rw [List.drop_eq_getElem_cons hlt, List.zip_cons_cons, varLoop, hbe]

/-- the extension's loop on rows of two entries is the loop of the model of the estimation -/
theorem extLoop {next : XR → XR → XR} {flat : List XR} {bs : List (XR × XR)}
    (hflat : ∀ t, (do let lo ← flat[t * 2]?; let hi ← flat[t * 2 + 1]?; return (lo, hi) : Option (XR × XR)) = bs[t]?) :
    ∀ (rs : List XR) (t : ℕ) (s : XR),
    cLoop next flat t s rs = if rs ≠ [] ∧ bs.length < t + rs.length then none
      else some (varLoop next boundsCheckCpp s (List.zip rs (bs.drop t)))
  | [], t, s => by simp [cLoop, varLoop]
  | r :: rs, t, s => by
    have hstep : cLoop next flat t s (r :: rs) = match bs[t]? with
        | none => none
        | some b => match cLoop next flat (t + 1) (boundsCheckCpp (next r s) b) rs with
          | none => none
          | some l => some (boundsCheckCpp (next r s) b :: l) := by
      have := hflat t
      rw [cLoop, ← this]
      cases flat[t * 2]? with
      | none => rfl
      | some lo =>
        cases flat[t * 2 + 1]? with
        | none => rfl
        | some hi =>
          show (cLoop next flat (t + 1) _ rs >>= fun rest => pure (_ :: rest)) =
            match cLoop next flat (t + 1) (boundsCheckCpp (next r s) (lo, hi)) rs with
              | none => none
              | some l => some (boundsCheckCpp (next r s) (lo, hi) :: l)
          cases cLoop next flat (t + 1) (boundsCheckCpp (next r s) (lo, hi)) rs <;> rfl
    rw [hstep]
    cases hb : bs[t]? with
    | none =>
      have := List.getElem?_eq_none_iff.mp hb
      simp only
      rw [if_pos ⟨by simp, by simp only [List.length_cons]; omega⟩]
    | some b =>
      have hlt : t < bs.length := (List.getElem?_eq_some_iff.mp hb).1
      have hbe : bs[t] = b := (List.getElem?_eq_some_iff.mp hb).2
      simp only
      rw [extLoop hflat rs (t + 1)]
      by_cases hc : bs.length < t + 1 + rs.length
      · have hrs : rs ≠ [] := by rintro rfl; simp at hc; omega
        rw [if_pos ⟨hrs, hc⟩, if_pos ⟨by simp, by simp only [List.length_cons]; omega⟩]
      · rw [if_neg (fun h => hc h.2), if_neg (fun h => hc (by simpa [add_assoc, add_comm 1] using h.2))]
        simp only
        rw [List.drop_eq_getElem_cons hlt, List.zip_cons_cons, varLoop, hbe]

/-- the flattened rows of `k` entries -/
theorem flatten_get {k : ℕ} (hk : 0 < k) : ∀ {B : List (List XR)}, (∀ row ∈ B, row.length = k) → ∀ i,
    B.flatten[i]? = match B[i / k]? with
      | some row => row[i % k]?
      | none => none
  | [], _, i => by simp
  | row :: B, h, i => by
    have hrow : row.length = k := h row (by simp)
    rw [List.flatten_cons]
    by_cases hi : i < k
    · rw [List.getElem?_append_left (by omega), Nat.div_eq_of_lt hi, Nat.mod_eq_of_lt hi]
      rfl
    · rw [List.getElem?_append_right (by omega), flatten_get hk (fun r hr => h r (List.mem_cons_of_mem _ hr)), hrow]
      have e1 : i / k = (i - k) / k + 1 := by rw [Nat.div_eq_sub_div hk (by omega)]
      have e2 : i % k = (i - k) % k := by rw [Nat.mod_eq_sub_mod (by omega)]
      rw [e1, e2, List.getElem?_cons_succ]

end KernelCalls
open KernelCalls

/-- C171. Without the extension the number of parameters is checked: three for GARCH, four for GJR-GARCH. -/
theorem C171_params_python {α : Type} (E : Model.KernelCalls.Elem α) (params : List XR) (resids : List α) (bc : XR)
    (B : List (List XR)) :
    (params.length ≠ 3 → Model.KernelCalls.garchPy E params resids bc B = .error .valueError) ∧
    (params.length ≠ 4 → Model.KernelCalls.gjrPy E params resids bc B = .error .valueError) := by
  constructor
  · intro h
    unfold Model.KernelCalls.garchPy
    split
    · simp at h
    · rfl
  · intro h
    unfold Model.KernelCalls.gjrPy
    split
    · simp at h
    · rfl

/-- C171. With the extension superfluous parameters are ignored without an error, and too few are undefined behaviour. -/
theorem C171_params_extension (params extra resids : List XR) (bc : XR) (B : List XR) :
    (params.length = 3 → Model.KernelCalls.garchExt (params ++ extra) resids bc B
      = Model.KernelCalls.garchExt params resids bc B) ∧
    (params.length = 4 → Model.KernelCalls.gjrExt (params ++ extra) resids bc B
      = Model.KernelCalls.gjrExt params resids bc B) ∧
    (params.length < 3 → Model.KernelCalls.garchExt params resids bc B = none) ∧
    (params.length < 4 → Model.KernelCalls.gjrExt params resids bc B = none) := by
  refine ⟨fun h => ?_, fun h => ?_, fun h => ?_, fun h => ?_⟩
  · match params, h with
    | [a, b, c], _ => rfl
  · match params, h with
    | [a, b, c, d], _ => rfl
  · match params, h with
    | [], _ => rfl
    | [a], _ => rfl
    | [a, b], _ => rfl
  · match params, h with
    | [], _ => rfl
    | [a], _ => rfl
    | [a, b], _ => rfl
    | [a, b, c], _ => rfl

/-- C171. Passing the full parameter vector `[mu, omega, alpha, beta]` of the model: an error without the extension; with it
the variances of a model in which `mu` plays the role of `omega`, `omega` that of `alpha` and `alpha` that of `beta`. -/
theorem C171_full_vector (mu omega alpha beta bc : XR) (resids : List XR) (bs : List (XR × XR)) :
    Model.KernelCalls.garchPy Model.KernelCalls.flt [mu, omega, alpha, beta] resids bc (bs.map fun b => [b.1, b.2])
      = .error .valueError ∧
    Model.KernelCalls.garchExt [mu, omega, alpha, beta] resids bc (bs.flatMap fun b => [b.1, b.2])
      = Model.KernelCalls.garchExt [mu, omega, alpha] resids bc (bs.flatMap fun b => [b.1, b.2]) :=
  ⟨(C171_params_python _ _ _ _ _).1 (by simp), (C171_params_extension [mu, omega, alpha] [beta] resids bc _).1 rfl⟩

/-- C171. With the right number of parameters, float64 residuals and bounds of at least two columns the call without the
extension is the variance path the estimation uses, with the first two columns as bounds. -/
theorem C171_python (omega alpha gamma beta bc : XR) (resids : List XR) (B : List (List XR))
    (h : ∀ row ∈ B, 2 ≤ row.length) :
    Model.KernelCalls.garchPy Model.KernelCalls.flt [omega, alpha, beta] resids bc B
      = garchVariance false ⟨omega, alpha, beta⟩ resids bc (B.map firstTwo) ∧
    Model.KernelCalls.gjrPy Model.KernelCalls.flt [omega, alpha, gamma, beta] resids bc B
      = gjrVariance false ⟨omega, alpha, gamma, beta⟩ resids bc (B.map firstTwo) := by
  have aux : ∀ (next : XR → XR → XR) (s0 : XR) (f : ℕ → XR → XR → Except PyErr XR),
      (∀ t s r, f t s r = match (B.map firstTwo)[t]? with
        | some b => .ok (boundsCheckPy (next r s) b)
        | none => .error .indexError) → resids ≠ [] →
      (match genLoop f 1 s0 resids.dropLast with
        | .error e => .error e
        | .ok l => .ok (s0 :: l)) = variancePath next (boundsCheck false) s0 resids (B.map firstTwo) := by
    intro next s0 f hf hne
    have hpos := List.length_pos_iff.mpr hne
    rw [floatLoop hf]
    unfold variancePath
    rw [if_neg hne]
    have hiff : (resids.dropLast ≠ [] ∧ (B.map firstTwo).length < 1 + resids.dropLast.length)
        ↔ (2 ≤ resids.length ∧ (B.map firstTwo).length < resids.length) := by
      rw [← List.length_pos_iff, List.length_dropLast]
      omega
    by_cases hc : 2 ≤ resids.length ∧ (B.map firstTwo).length < resids.length
    · rw [if_pos hc, if_pos (hiff.mpr hc)]
    · rw [if_neg hc, if_neg (fun hh => hc (hiff.mp hh))]
      simp [boundsCheck, List.drop_one]
  constructor
  · unfold Model.KernelCalls.garchPy garchVariance
    by_cases hr : resids = []
    · simp [hr, variancePath]
    · rw [← aux (garchNext ⟨omega, alpha, beta⟩) _ (garchF Model.KernelCalls.flt ⟨omega, alpha, beta⟩ B) _ hr]
      · simp only [if_neg hr, bind, Except.bind, pure, Except.pure, Model.KernelCalls.flt]
        rw [garchLoop_gen]
        generalize genLoop _ 1 _ resids.dropLast = X
        cases X <;> rfl
      · intro t s r
        simp only [garchF, bind, Except.bind, Model.KernelCalls.flt, boundsAt_eq h]
        cases (B.map firstTwo)[t]? <;> rfl
  · unfold Model.KernelCalls.gjrPy gjrVariance
    by_cases hr : resids = []
    · simp [hr, variancePath]
    · simp only [Bool.false_eq_true, if_false]
      rw [← aux (gjrNextPy ⟨omega, alpha, gamma, beta⟩) _ (gjrF Model.KernelCalls.flt ⟨omega, alpha, gamma, beta⟩ B) _ hr]
      · simp only [if_neg hr, bind, Except.bind, pure, Except.pure, Model.KernelCalls.flt]
        rw [gjrLoop_gen]
        generalize genLoop _ 1 _ resids.dropLast = X
        cases X <;> rfl
      · intro t s r
        simp only [gjrF, Model.KernelCalls.gjrStep, bind, Except.bind, Model.KernelCalls.flt, boundsAt_eq h]
        cases (B.map firstTwo)[t]? <;> rfl

/-- C171. Bounds with fewer than two columns raise an `IndexError` without the extension, if there are two residuals. -/
theorem C171_few_columns (omega alpha beta bc : XR) (resids : List XR) (hr : 2 ≤ resids.length) (B : List (List XR))
    (h : ∀ row ∈ B, row.length < 2) :
    Model.KernelCalls.garchPy Model.KernelCalls.flt [omega, alpha, beta] resids bc B = .error .indexError := by
  match resids, hr with
  | r :: q :: rest, _ =>
    have hb : Model.KernelCalls.boundsAt B 1 = .error .indexError := by
      unfold Model.KernelCalls.boundsAt
      cases hB : B[1]? with
      | none => rfl
      | some row =>
        have := h row (List.mem_of_getElem? hB)
        match row, this with
        | [], _ => rfl
        | [a], _ => rfl
    simp [Model.KernelCalls.garchPy, Model.KernelCalls.garchLoop, List.dropLast, bind, Except.bind, pure, Except.pure,
      Model.KernelCalls.flt, hb]

/-- C171. With the extension the bounds of time `t` are the entries `2t` and `2t + 1` of the flattened array. For bounds of
`k` columns these are the entries in row `2t / k`, column `2t % k` and row `(2t+1) / k`, column `(2t+1) % k`; for two
columns the two entries of row `t`. -/
theorem C171_extension (omega alpha gamma beta bc : XR) (resids : List XR) (hr : resids ≠ []) (k : ℕ) (hk : 0 < k)
    (B : List (List XR)) (h : ∀ row ∈ B, row.length = k) (hlen : 2 * resids.length ≤ k * B.length) :
    ∃ bs : List (XR × XR), bs.length = k * B.length / 2 ∧
      (∀ t, 2 * t + 1 < k * B.length → ∃ row row', B[2 * t / k]? = some row ∧ B[(2 * t + 1) / k]? = some row' ∧
        bs[t]? = some (row.getD (2 * t % k) .nan, row'.getD ((2 * t + 1) % k) .nan)) ∧
      Model.KernelCalls.garchExt [omega, alpha, beta] resids bc B.flatten
        = (garchVariance true ⟨omega, alpha, beta⟩ resids bc bs).toOption ∧
      Model.KernelCalls.gjrExt [omega, alpha, gamma, beta] resids bc B.flatten
        = (gjrVariance true ⟨omega, alpha, gamma, beta⟩ resids bc bs).toOption := by
  have hflen : B.flatten.length = k * B.length := by
    clear hlen
    induction B with
    | nil => simp
    | cons row B ih =>
      rw [List.flatten_cons, List.length_append, h row (by simp), ih (fun r hr => h r (List.mem_cons_of_mem _ hr)),
        List.length_cons]
      ring
  let bs : List (XR × XR) := (List.range (k * B.length / 2)).map fun t =>
    (B.flatten.getD (t * 2) .nan, B.flatten.getD (t * 2 + 1) .nan)
  have hbs : ∀ t, (do let lo ← B.flatten[t * 2]?; let hi ← B.flatten[t * 2 + 1]?; return (lo, hi) : Option (XR × XR))
      = bs[t]? := by
    intro t
    show _ = ((List.range (k * B.length / 2)).map _)[t]?
    rw [List.getElem?_map]
    by_cases ht : t < k * B.length / 2
    · rw [List.getElem?_range ht, List.getElem?_eq_getElem (by omega), List.getElem?_eq_getElem (by omega)]
      simp only [Option.map_some]
      rw [List.getD_eq_getElem _ _ (by omega), List.getD_eq_getElem _ _ (by omega)]
      rfl
    · rw [List.getElem?_eq_none (l := List.range _) (by simpa using ht)]
      rw [List.getElem?_eq_none (l := B.flatten) (i := t * 2 + 1) (by omega)]
      cases B.flatten[t * 2]? <;> rfl
  have hbl : bs.length = k * B.length / 2 := by simp [bs]
  have hpos := List.length_pos_iff.mpr hr
  have aux : ∀ (next : XR → XR → XR) (s0 : XR),
      (match Model.KernelCalls.cLoop next B.flatten 1 s0 resids.dropLast with
        | none => none
        | some l => some (s0 :: l)) = (variancePath next boundsCheckCpp s0 resids bs).toOption := by
    intro next s0
    rw [extLoop hbs, if_neg]
    · unfold variancePath
      rw [if_neg hr, if_neg (by rw [hbl]; omega)]
      simp [Except.toOption, List.drop_one]
    · rw [hbl, List.length_dropLast]
      omega
  refine ⟨bs, hbl, fun t ht => ?_, ?_, ?_⟩
  · have e1 := flatten_get hk h (2 * t)
    have e2 := flatten_get hk h (2 * t + 1)
    have hb := hbs t
    rw [show t * 2 = 2 * t by ring] at hb
    have l1 : 2 * t / k < B.length := Nat.div_lt_of_lt_mul (by omega)
    have l2 : (2 * t + 1) / k < B.length := Nat.div_lt_of_lt_mul (by omega)
    rw [List.getElem?_eq_getElem l1] at e1
    rw [List.getElem?_eq_getElem l2] at e2
    simp only at e1 e2
    refine ⟨B[2 * t / k], B[(2 * t + 1) / k], List.getElem?_eq_getElem l1, List.getElem?_eq_getElem l2, ?_⟩
    have m1 : 2 * t % k < B[2 * t / k].length := by rw [h _ (List.getElem_mem _)]; exact Nat.mod_lt _ hk
    have m2 : (2 * t + 1) % k < B[(2 * t + 1) / k].length := by rw [h _ (List.getElem_mem _)]; exact Nat.mod_lt _ hk
    rw [List.getElem?_eq_getElem m1] at e1
    rw [List.getElem?_eq_getElem m2] at e2
    rw [← hb, e1, e2, List.getD_eq_getElem _ _ m1, List.getD_eq_getElem _ _ m2]
    rfl
  · unfold Model.KernelCalls.garchExt garchVariance
    simp only [if_neg hr, boundsCheck, if_true]
    rw [← aux]
    show (Model.KernelCalls.cLoop _ B.flatten 1 _ resids.dropLast >>= fun rest => pure (_ :: rest)) = _
    cases Model.KernelCalls.cLoop (garchNext ⟨omega, alpha, beta⟩) B.flatten 1 (omega + (alpha + beta) * bc) resids.dropLast <;> rfl
  · unfold Model.KernelCalls.gjrExt gjrVariance
    simp only [if_neg hr, boundsCheck, if_true]
    rw [← aux]
    show (Model.KernelCalls.cLoop _ B.flatten 1 _ resids.dropLast >>= fun rest => pure (_ :: rest)) = _
    cases Model.KernelCalls.cLoop (gjrNextCpp ⟨omega, alpha, gamma, beta⟩) B.flatten 1
      (omega + (alpha + gamma / 2 + beta) * bc) resids.dropLast <;> rfl

/-- C171. With three columns the two implementations disagree: a concrete call. -/
theorem C171_three_columns : ∃ (resids : List XR) (B : List (List XR)), (∀ row ∈ B, row.length = 3) ∧
    Model.KernelCalls.garchPy Model.KernelCalls.flt [1, 0, 0] resids 1 B = .ok [.fin 1, .fin 1] ∧
    ∃ v : ℝ, v ≠ 1 ∧ Model.KernelCalls.garchExt [1, 0, 0] resids 1 B.flatten = some [.fin 1, .fin v] := by
  refine ⟨[.fin 1, .fin 1], [[.fin 1, .fin 2, .fin 5], [.fin (1 / 2), .fin 3, .fin 7]], by simp, ?_,
    1 / 2 + Real.log 10, ?_, ?_⟩
  · simp [Model.KernelCalls.garchPy, Model.KernelCalls.garchLoop, Model.KernelCalls.flt, Model.KernelCalls.boundsAt,
      bind, Except.bind, pure, Except.pure, XR.one_def, XR.zero_def, List.dropLast]
    rw [boundsCheckPy_fin (by norm_num) (by norm_num)]
    simp [clampLog]
    norm_num
  · have h1 : Real.log 2 ≤ Real.log 10 := Real.log_le_log (by norm_num) (by norm_num)
    have h2 := Real.log_two_gt_d9
    intro h
    norm_num at h2
    linarith
  · have hc : boundsCheckCpp (.fin 1) (.fin 5, .fin (1 / 2)) = .fin (1 / 2 + Real.log 10) := by
      unfold boundsCheckCpp
      simp only [XR.fin_lt]
      rw [if_pos (show (1 : ℝ) < 5 by norm_num), if_pos (by rw [XR.fin_lt]; norm_num), if_pos (by simp [XR.isInf]),
        XR.fin_div _ (by norm_num),
        XR.fin_log (by norm_num), XR.fin_add]
      norm_num
    simp [Model.KernelCalls.garchExt, Model.KernelCalls.cLoop, garchNext, XR.one_def, XR.zero_def, List.dropLast]
    rw [one_div] at hc
    exact hc

/-! ### C172 -/

namespace KernelCalls
open Frds.Model.KernelCalls

/-- the squares of these integers are int64 numbers -/
def SquareFits (z : ℤ) : Prop := -3037000499 ≤ z ∧ z ≤ 3037000499

theorem sq_fits {z : ℤ} (h : SquareFits z) : int64Ty.wrap (z * z) = z * z := by
  have h1 : 0 ≤ z * z := mul_self_nonneg z
  have h2 : z * z ≤ 3037000499 * 3037000499 := by
    obtain ⟨a, b⟩ := h
    nlinarith
  unfold Np.IntTy.wrap int64Ty
  simp only [if_true]
  rw [Int.bmod_eq_of_le] <;> norm_num <;> omega

theorem store_fin {x : ℝ} {z : ℤ} (h : int64.store (.fin x) = .ok z) : z = trunc x := by
  simp only [int64] at h
  split_ifs at h
  simpa using h.symm

theorem store_err {x : ℝ} {e : PyErr} (h : int64.store (.fin x) = .error e) : e = .overflowError := by
  simp only [int64] at h
  split_ifs at h
  simpa using h.symm

/-- finite rows `[lo, hi]` -/
def rowsOf (bs : List (ℝ × ℝ)) : List (List XR) := bs.map fun b => [.fin b.1, .fin b.2]

theorem rowsOf_at (bs : List (ℝ × ℝ)) (t : ℕ) : boundsAt (rowsOf bs) t = match bs[t]? with
    | some b => .ok (.fin b.1, .fin b.2)
    | none => .error .indexError := by
  unfold boundsAt rowsOf
  rw [List.getElem?_map]
  cases bs[t]? <;> rfl

theorem garchF_int {o a b : ℝ} {bs : List (ℝ × ℝ)} (hb : ∀ q ∈ bs, 0 < q.1 ∧ q.1 ≤ q.2) {t : ℕ} {q : ℝ × ℝ}
    (hq : bs[t]? = some q) {s r : ℤ} (hr : SquareFits r) :
    (∀ z, garchF int64 ⟨.fin o, .fin a, .fin b⟩ (rowsOf bs) t s r = .ok z →
      z = trunc (clampLog q.1 q.2 (trunc (o + a * r ^ 2 + b * s)))) ∧
    (∀ e, garchF int64 ⟨.fin o, .fin a, .fin b⟩ (rowsOf bs) t s r = .error e → e = .overflowError) := by
  have hx : (XR.fin o + XR.fin a * int64.sq r + XR.fin b * int64.val s) = .fin (o + a * r ^ 2 + b * s) := by
    simp only [int64, sq_fits hr, XR.fin_mul, XR.fin_add, Int.cast_mul, sq]
  have hbq := hb q (List.mem_of_getElem? hq)
  have hF : garchF int64 ⟨.fin o, .fin a, .fin b⟩ (rowsOf bs) t s r = match int64.store (.fin (o + a * r ^ 2 + b * s)) with
      | .error e => .error e
      | .ok s1 => int64.store (.fin (clampLog q.1 q.2 s1)) := by
    simp only [garchF, bind, Except.bind, hx, rowsOf_at, hq]
    cases int64.store (.fin (o + a * r ^ 2 + b * s)) with
    | error e => rfl
    | ok s1 =>
      simp only
      rw [show int64.val s1 = .fin s1 from rfl, boundsCheckPy_fin hbq.1 hbq.2]
  rw [hF]
  cases hs : int64.store (.fin (o + a * r ^ 2 + b * s)) with
  | error e => exact ⟨fun z h => (by cases h), fun e' h => by cases h; exact store_err hs⟩
  | ok s1 =>
    have := store_fin hs
    subst this
    exact ⟨fun z h => store_fin h, fun e h => store_err h⟩

theorem gjrStep_int {o a g b : ℝ} {s r : ℤ} (hr : SquareFits r) :
    (∀ z, gjrStep int64 ⟨.fin o, .fin a, .fin g, .fin b⟩ s r = .ok z →
      z = trunc (trunc (o + a * r ^ 2 + b * s) + if r < 0 then g * r ^ 2 else 0)) ∧
    (∀ e, gjrStep int64 ⟨.fin o, .fin a, .fin g, .fin b⟩ s r = .error e → e = .overflowError) := by
  have hx : (XR.fin o + XR.fin a * int64.sq r + XR.fin b * int64.val s) = .fin (o + a * r ^ 2 + b * s) := by
    simp only [int64, sq_fits hr, XR.fin_mul, XR.fin_add, Int.cast_mul, sq]
  have hF : gjrStep int64 ⟨.fin o, .fin a, .fin g, .fin b⟩ s r = match int64.store (.fin (o + a * r ^ 2 + b * s)) with
      | .error e => .error e
      | .ok s1 => int64.store (.fin (s1 + if r < 0 then g * r ^ 2 else 0)) := by
    simp only [gjrStep, bind, Except.bind, hx]
    cases int64.store (.fin (o + a * r ^ 2 + b * s)) with
    | error e => rfl
    | ok s1 =>
      simp only
      congr 1
      by_cases hn : r < 0
      · rw [if_pos (show int64.neg r from hn), if_pos hn]
        simp only [int64, sq_fits hr, XR.fin_mul, XR.fin_add, Int.cast_mul, sq]
      · rw [if_neg (show ¬ int64.neg r from hn), if_neg hn]
        simp only [int64, XR.zero_def, XR.fin_add]
  rw [hF]
  cases hs : int64.store (.fin (o + a * r ^ 2 + b * s)) with
  | error e => exact ⟨fun z h => (by cases h), fun e' h => by cases h; exact store_err hs⟩
  | ok s1 =>
    have := store_fin hs
    subst this
    exact ⟨fun z h => store_fin h, fun e h => store_err h⟩

/-- from the loop to the recursion -/
theorem recursion_of_loop {β : Type} {f : ℕ → ℤ → ℤ → Except PyErr ℤ} {step : ℤ → ℤ → β → ℤ} {rs : List ℤ}
    (hrs : rs ≠ []) {bs : List β} {s0 : ℤ} {out : List ℤ} (h : genLoop f 1 s0 rs.dropLast = .ok out)
    (hf : ∀ t r s b z, r ∈ rs → bs[t]? = some b → f t s r = .ok z → z = step r s b) :
    IsRecursion step s0 rs bs (s0 :: out) := by
  obtain ⟨h1, h2⟩ := genLoop_ok h
  have hpos := List.length_pos_iff.mpr hrs
  rw [List.length_dropLast] at h1
  refine ⟨by simp only [List.length_cons]; omega, rfl, fun t r s b ht hr hs hb => ?_⟩
  have hr' : rs.dropLast[t]? = some r := by
    rw [List.getElem?_dropLast, if_pos (by omega)]; exact hr
  obtain ⟨y, e1, e2⟩ := h2 t r s hr' hs
  rw [List.getElem?_cons_succ, e1, hf _ r s b y (List.mem_of_getElem? hr) (by rw [add_comm]; exact hb) e2]

end KernelCalls
open KernelCalls

/-- C172. Integer residuals, no extension: every variance is an integer. Each intermediate result is cut off towards zero,
before and after the bounds are applied; nothing but an overflow is reported. -/
theorem C172_garch (o a b bc : ℝ) (resids : List ℤ) (hr : resids ≠ []) (hfit : ∀ r ∈ resids, SquareFits r)
    (bs : List (ℝ × ℝ)) (hb : ∀ q ∈ bs, 0 < q.1 ∧ q.1 ≤ q.2) (hlen : resids.length ≤ bs.length) :
    (∀ s, Model.KernelCalls.garchPy Model.KernelCalls.int64 [.fin o, .fin a, .fin b] resids (.fin bc) (rowsOf bs) = .ok s →
      IsRecursion (fun (r s : ℤ) (q : ℝ × ℝ) => towardZero
          (clampLog q.1 q.2 (towardZero (o + a * r ^ 2 + b * s))))
        (towardZero (o + (a + b) * bc)) resids bs s) ∧
    (∀ e, Model.KernelCalls.garchPy Model.KernelCalls.int64 [.fin o, .fin a, .fin b] resids (.fin bc) (rowsOf bs) = .error e →
      e = .overflowError) := by
  have hF : Model.KernelCalls.garchPy Model.KernelCalls.int64 [.fin o, .fin a, .fin b] resids (.fin bc) (rowsOf bs)
      = match Model.KernelCalls.int64.store (.fin (o + (a + b) * bc)) with
        | .error e => .error e
        | .ok s0 => match genLoop (garchF Model.KernelCalls.int64 ⟨.fin o, .fin a, .fin b⟩ (rowsOf bs)) 1 s0 resids.dropLast with
          | .error e => .error e
          | .ok l => .ok (s0 :: l) := by
    simp only [Model.KernelCalls.garchPy, if_neg hr, bind, Except.bind, pure, Except.pure, XR.fin_add, XR.fin_mul,
      garchLoop_gen]
    cases Model.KernelCalls.int64.store (.fin (o + (a + b) * bc)) with
    | error e => rfl
    | ok s0 =>
      simp only
      generalize genLoop _ 1 s0 resids.dropLast = X
      cases X <;> rfl
  rw [hF]
  cases h0 : Model.KernelCalls.int64.store (.fin (o + (a + b) * bc)) with
  | error e => exact ⟨fun z h => (by cases h), fun e' h => by cases h; exact store_err h0⟩
  | ok s0 =>
    have := store_fin h0
    subst this
    simp only
    cases hl : genLoop (garchF Model.KernelCalls.int64 ⟨.fin o, .fin a, .fin b⟩ (rowsOf bs)) 1
        (Model.KernelCalls.trunc (o + (a + b) * bc)) resids.dropLast with
    | error e =>
      refine ⟨fun z h => (by cases h), fun e' h => ?_⟩
      cases h
      obtain ⟨i, x, r, hi, hri, hf⟩ := genLoop_err hl
      rw [List.length_dropLast] at hi
      have hq : bs[1 + i]? = some (bs[1 + i]'(by omega)) := List.getElem?_eq_getElem (by omega)
      exact (garchF_int hb hq (hfit r (List.dropLast_subset _ (List.mem_of_getElem? hri)))).2 _ hf
    | ok l =>
      refine ⟨fun z h => ?_, fun e h => by cases h⟩
      cases h
      exact recursion_of_loop hr hl fun t r s q z hr' hq hf => (garchF_int hb hq (hfit r hr')).1 z hf

/-- C172. The same for the GJR model. -/
theorem C172_gjr (o a g b bc : ℝ) (resids : List ℤ) (hr : resids ≠ []) (hfit : ∀ r ∈ resids, SquareFits r)
    (bs : List (ℝ × ℝ)) (hb : ∀ q ∈ bs, 0 < q.1 ∧ q.1 ≤ q.2) (s : List ℤ)
    (h : Model.KernelCalls.gjrPy Model.KernelCalls.int64 [.fin o, .fin a, .fin g, .fin b] resids (.fin bc) (rowsOf bs) = .ok s) :
    IsRecursion (fun (r s : ℤ) (q : ℝ × ℝ) => towardZero (clampLog q.1 q.2 (towardZero
        (towardZero (o + a * r ^ 2 + b * s) + if r < 0 then g * r ^ 2 else 0))))
      (towardZero (o + (a + g / 2 + b) * bc)) resids bs s := by
  have hF : Model.KernelCalls.gjrPy Model.KernelCalls.int64 [.fin o, .fin a, .fin g, .fin b] resids (.fin bc) (rowsOf bs)
      = match Model.KernelCalls.int64.store (.fin (o + (a + g / 2 + b) * bc)) with
        | .error e => .error e
        | .ok s0 => match genLoop (gjrF Model.KernelCalls.int64 ⟨.fin o, .fin a, .fin g, .fin b⟩ (rowsOf bs)) 1 s0 resids.dropLast with
          | .error e => .error e
          | .ok l => .ok (s0 :: l) := by
    simp only [Model.KernelCalls.gjrPy, if_neg hr, bind, Except.bind, pure, Except.pure, gjrLoop_gen,
      show (2 : XR) = .fin 2 from rfl, XR.fin_div _ (two_ne_zero), XR.fin_add, XR.fin_mul]
    cases Model.KernelCalls.int64.store (.fin (o + (a + g / 2 + b) * bc)) with
    | error e => rfl
    | ok s0 =>
      simp only
      generalize genLoop _ 1 s0 resids.dropLast = X
      cases X <;> rfl
  rw [hF] at h
  cases h0 : Model.KernelCalls.int64.store (.fin (o + (a + g / 2 + b) * bc)) with
  | error e => rw [h0] at h; cases h
  | ok s0 =>
    have := store_fin h0
    subst this
    rw [h0] at h
    simp only at h
    cases hl : genLoop (gjrF Model.KernelCalls.int64 ⟨.fin o, .fin a, .fin g, .fin b⟩ (rowsOf bs)) 1
        (Model.KernelCalls.trunc (o + (a + g / 2 + b) * bc)) resids.dropLast with
    | error e => rw [hl] at h; cases h
    | ok l =>
      rw [hl] at h
      cases h
      refine recursion_of_loop hr hl fun t r s q z hr' hq hf => ?_
      simp only [gjrF, bind, Except.bind, rowsOf_at, hq] at hf
      cases hg : Model.KernelCalls.gjrStep Model.KernelCalls.int64 ⟨.fin o, .fin a, .fin g, .fin b⟩ s r with
      | error e => rw [hg] at hf; cases hf
      | ok s1 =>
        rw [hg] at hf
        simp only at hf
        have hbq := hb q (List.mem_of_getElem? hq)
        rw [show Model.KernelCalls.int64.val s1 = .fin s1 from rfl, boundsCheckPy_fin hbq.1 hbq.2] at hf
        have e1 := (gjrStep_int (hfit r hr')).1 s1 hg
        subst e1
        exact store_fin hf

/-- C172. `forecast_variance` with integer residuals, with or without the extension. -/
theorem C172_forecast (o a g b s0 : ℝ) (resids : List ℤ) (hr : resids ≠ []) (hfit : ∀ r ∈ resids, SquareFits r)
    (out : List ℤ) (h : Model.KernelCalls.forecastPy Model.KernelCalls.int64 ⟨.fin o, .fin a, .fin g, .fin b⟩ resids (.fin s0)
      = .ok out) :
    IsRecursion (fun (r s : ℤ) (_ : Unit) => towardZero
        (towardZero (o + a * r ^ 2 + b * s) + if r < 0 then g * r ^ 2 else 0))
      (towardZero s0) resids (List.replicate resids.length ()) (towardZero s0 :: out) := by
  simp only [Model.KernelCalls.forecastPy, if_neg hr, bind, Except.bind] at h
  cases h0 : Model.KernelCalls.int64.store (.fin s0) with
  | error e => rw [h0] at h; cases h
  | ok z =>
    have := store_fin h0
    subst this
    rw [h0] at h
    simp only [forecastLoop_gen _ _ _ 1] at h
    exact recursion_of_loop hr h fun t r s q z hr' _ hf => (gjrStep_int (hfit r hr')).1 z hf

/-- C172. A first variance below one becomes zero, and the log-likelihood of the path is NaN. -/
theorem C172_zero (o a b bc : ℝ) (h0 : 0 ≤ o + (a + b) * bc) (h1 : o + (a + b) * bc < 1) (resids : List ℤ)
    (B : List (List XR)) (s : List ℤ)
    (h : Model.KernelCalls.garchPy Model.KernelCalls.int64 [.fin o, .fin a, .fin b] resids (.fin bc) B = .ok s) :
    s[0]? = some 0 ∧ loglik (resids.map fun z : ℤ => .fin z) (s.map fun z : ℤ => .fin z) = .nan := by
  have ht : Model.KernelCalls.trunc (o + (a + b) * bc) = 0 := by
    unfold Model.KernelCalls.trunc
    rw [if_pos h0]
    exact Int.floor_eq_zero_iff.mpr ⟨h0, h1⟩
  by_cases hr : resids = []
  · simp only [Model.KernelCalls.garchPy, if_pos hr] at h
    cases h
  have hhead : ∃ l, s = 0 :: l := by
    simp only [Model.KernelCalls.garchPy, if_neg hr, bind, Except.bind, pure, Except.pure, XR.fin_add, XR.fin_mul] at h
    cases hs : Model.KernelCalls.int64.store (.fin (o + (a + b) * bc)) with
    | error e => rw [hs] at h; cases h
    | ok s0 =>
      have := store_fin hs
      rw [ht] at this
      subst this
      rw [hs] at h
      simp only at h
      split at h
      · cases h
      · cases h
        exact ⟨_, rfl⟩
  obtain ⟨l, rfl⟩ := hhead
  refine ⟨rfl, ?_⟩
  match resids, hr with
  | r :: rs, _ =>
    unfold loglik
    rw [List.map_cons, List.map_cons, List.zipWith_cons_cons, List.sum_cons]
    have : ∀ y : XR, XR.nan + y = .nan := by intro y; cases y <;> rfl
    have hlog : XR.log (.fin ((0 : ℤ) : ℝ)) = .ninf := by simp [XR.log]
    have hpi : XR.log (.fin (2 * Real.pi)) = .fin (Real.log (2 * Real.pi)) := XR.fin_log (by positivity)
    have hq : XR.ninf + XR.sq (.fin (r : ℝ)) / .fin ((0 : ℤ) : ℝ) = .nan := by
      rw [XR.fin_sq]
      by_cases hz : r = 0
      · subst hz
        rw [Int.cast_zero]
        simp [XR.fin_div_zero]
      · have : (0 : ℝ) < (r : ℝ) ^ 2 := by positivity
        rw [Int.cast_zero, XR.fin_div_zero, XR.infSign_pos this]
        rfl
    have hterm : XR.fin (-(1 / 2)) * (XR.log (.fin (2 * Real.pi)) + XR.log (.fin ((0 : ℤ) : ℝ))
        + XR.sq (.fin (r : ℝ)) / .fin ((0 : ℤ) : ℝ)) = .nan := by
      rw [hlog, hpi, show XR.fin (Real.log (2 * Real.pi)) + XR.ninf = .ninf from rfl, hq]
      rfl
    rw [hterm, this]

/-- C172. With the extension the int64 words are read as doubles: a non-negative residual below `2 ^ 52` becomes a number
below `2 ^ -1022`, a negative one above `-2 ^ 52` becomes NaN. -/
theorem C172_reinterpreted (z : ℤ) :
    (0 ≤ z → z < 2 ^ 52 → ∃ x : ℝ, Model.KernelCalls.reinterpret z = .fin x ∧ 0 ≤ x ∧ x < 2 ^ (-1022 : ℤ)) ∧
    (-2 ^ 52 < z → z < 0 → Model.KernelCalls.reinterpret z = .nan) := by
  constructor
  · intro h0 h1
    have hw : z % 2 ^ 64 = z := Int.emod_eq_of_lt h0 (by omega)
    have he : z / 2 ^ 52 = 0 := Int.ediv_eq_zero_of_lt h0 h1
    have hf : z % 2 ^ 52 = z := Int.emod_eq_of_lt h0 h1
    refine ⟨1 * z * 2 ^ (-1074 : ℤ), ?_, by have : (0 : ℝ) ≤ z := by exact_mod_cast h0
                                            positivity, ?_⟩
    · unfold Model.KernelCalls.reinterpret
      simp only [hw, he, hf]
      rw [if_neg (by norm_num), if_pos (by norm_num), if_pos (by omega)]
    · have h2 : (z : ℝ) < 2 ^ (52 : ℤ) := by
        have : ((z : ℤ) : ℝ) < ((2 ^ 52 : ℤ) : ℝ) := by exact_mod_cast h1
        norm_num at this ⊢
        exact this
      calc 1 * (z : ℝ) * 2 ^ (-1074 : ℤ) = z * 2 ^ (-1074 : ℤ) := by ring
        _ < 2 ^ (52 : ℤ) * 2 ^ (-1074 : ℤ) := mul_lt_mul_of_pos_right h2 (by positivity)
        _ = 2 ^ (-1022 : ℤ) := by rw [← zpow_add₀ (by norm_num)]; norm_num
  · intro h0 h1
    have hw : z % 2 ^ 64 = 2 ^ 64 + z := by
      rw [← Int.add_emod_left]
      exact Int.emod_eq_of_lt (by omega) (by omega)
    have he : (2 ^ 64 + z) / 2 ^ 52 % 2 ^ 11 = 2047 := by omega
    have hf : (2 ^ 64 + z) % 2 ^ 52 ≠ 0 := by omega
    unfold Model.KernelCalls.reinterpret
    simp only [hw, he]
    rw [if_pos trivial, if_neg hf]

/-- C172. Hence with the extension every variance after the first negative residual is NaN, for any parameters. -/
theorem C172_extension_nan (p0 p1 p2 bc : XR) (resids : List ℤ) (B : List XR) (s : List XR) (i : ℕ) (z : ℤ)
    (hz : resids[i]? = some z) (h0 : -2 ^ 52 < z) (h1 : z < 0)
    (h : Model.KernelCalls.garchExt [p0, p1, p2] (resids.map Model.KernelCalls.reinterpret) bc B = some s) :
    ∀ j x, i < j → s[j]? = some x → x = .nan := by
  have hne : resids.map Model.KernelCalls.reinterpret ≠ [] := by
    intro hh
    rw [List.map_eq_nil_iff] at hh
    simp [hh] at hz
  have hnan := (C172_reinterpreted z).2 h0 h1
  -- the loop
  have key : ∀ (rs : List XR) (t : ℕ) (s0 : XR) (out : List XR),
      Model.KernelCalls.cLoop (garchNext ⟨p0, p1, p2⟩) B t s0 rs = some out →
      (s0 = XR.nan → ∀ (j : ℕ) (x : XR), out[j]? = some x → x = XR.nan) ∧
      (∀ k : ℕ, rs[k]? = some XR.nan → ∀ (j : ℕ) (x : XR), k ≤ j → out[j]? = some x → x = XR.nan) := by
    have nanmul : ∀ y : XR, y * XR.nan = XR.nan := by intro y; cases y <;> rfl
    have nanadd : ∀ y : XR, y + XR.nan = XR.nan := by intro y; cases y <;> rfl
    have nanadd' : ∀ y : XR, XR.nan + y = XR.nan := by intro y; cases y <;> rfl
    have chk : ∀ b : XR × XR, boundsCheckCpp .nan b = .nan := by
      intro b
      unfold boundsCheckCpp
      have l1 : ¬ (XR.nan < b.1) := by cases b.1 <;> exact id
      have l2 : ¬ (b.2 < XR.nan) := by cases b.2 <;> exact id
      simp only [if_neg l1, if_neg l2]
    intro rs
    induction rs with
    | nil =>
      intro t s0 out ho
      simp only [Model.KernelCalls.cLoop, Option.some.injEq] at ho
      subst ho
      simp
    | cons r rs ih =>
      intro t s0 out ho
      simp only [Model.KernelCalls.cLoop, Option.bind_eq_bind, Option.bind_eq_some_iff, Option.pure_def,
        Option.some.injEq] at ho
      obtain ⟨lo, _, hi, _, rest, hrest, rfl⟩ := ho
      obtain ⟨i1, i2⟩ := ih _ _ _ hrest
      constructor
      · rintro rfl
        have e : boundsCheckCpp (garchNext ⟨p0, p1, p2⟩ r .nan) (lo, hi) = .nan := by
          simp only [garchNext, nanmul, nanadd, chk]
        rw [e] at i1
        intro j x hj
        cases j with
        | zero => simp only [e, List.getElem?_cons_zero, Option.some.injEq] at hj; exact hj.symm
        | succ j => exact i1 rfl j x (by simpa using hj)
      · intro k hk j x hkj hj
        cases k with
        | zero =>
          simp only [List.getElem?_cons_zero, Option.some.injEq] at hk
          subst hk
          have e : boundsCheckCpp (garchNext ⟨p0, p1, p2⟩ .nan s0) (lo, hi) = .nan := by
            simp only [garchNext, XR.sq, nanmul, nanadd, nanadd', chk]
          rw [e] at i1
          cases j with
          | zero => simp only [e, List.getElem?_cons_zero, Option.some.injEq] at hj; exact hj.symm
          | succ j => exact i1 rfl j x (by simpa using hj)
        | succ k =>
          cases j with
          | zero => omega
          | succ j => exact i2 k (by simpa using hk) j x (by omega) (by simpa using hj)
  simp only [Model.KernelCalls.garchExt, if_neg hne, Option.bind_eq_bind, Option.bind_eq_some_iff, Option.pure_def,
    Option.some.injEq] at h
  obtain ⟨rest, hrest, rfl⟩ := h
  intro j x hij hj
  cases j with
  | zero => omega
  | succ j =>
    rw [List.getElem?_cons_succ] at hj
    have hlt : j < rest.length := (List.getElem?_eq_some_iff.mp hj).1
    have hk := (key _ _ _ _ hrest).2 i
    have hlen : rest.length = (resids.map Model.KernelCalls.reinterpret).dropLast.length := by
      clear hk hj hlt key
      generalize (resids.map Model.KernelCalls.reinterpret).dropLast = rs at hrest
      generalize p0 + (p1 + p2) * bc = s0 at hrest
      generalize (1 : ℕ) = t at hrest
      induction rs generalizing t s0 rest with
      | nil =>
        simp only [Model.KernelCalls.cLoop, Option.some.injEq] at hrest
        subst hrest; rfl
      | cons r rs ih =>
        simp only [Model.KernelCalls.cLoop, Option.bind_eq_bind, Option.bind_eq_some_iff, Option.pure_def,
          Option.some.injEq] at hrest
        obtain ⟨lo, _, hi, _, rest', hrest', rfl⟩ := hrest
        rw [List.length_cons, List.length_cons, ih _ _ _ hrest']
    refine hk ?_ j x (by omega) hj
    rw [hlen, List.length_dropLast, List.length_map] at hlt
    rw [List.getElem?_dropLast, List.length_map, if_pos (by omega), List.getElem?_map, hz, Option.map_some, hnan]

/-- C172. Integer variances cannot hold a NaN or an infinity: if the first variance is NaN (any NaN parameter or backcast) the
call raises `ValueError`, if it is infinite `OverflowError`; the same calls with float residuals return the NaN or infinity. -/
theorem C172_not_finite (p0 p1 p2 bc : XR) (resids : List ℤ) (hr : resids ≠ []) (B : List (List XR)) :
    ((p0 = .nan ∨ p1 = .nan ∨ p2 = .nan ∨ bc = .nan) →
      Model.KernelCalls.garchPy Model.KernelCalls.int64 [p0, p1, p2] resids bc B = .error .valueError) ∧
    ((p0 + (p1 + p2) * bc = .pinf ∨ p0 + (p1 + p2) * bc = .ninf) →
      Model.KernelCalls.garchPy Model.KernelCalls.int64 [p0, p1, p2] resids bc B = .error .overflowError) := by
  constructor
  · intro h
    have e : p0 + (p1 + p2) * bc = .nan := by
      rcases h with rfl | rfl | rfl | rfl
      · rfl
      · cases p0 <;> rfl
      · cases p0 <;> cases p1 <;> rfl
      · have : ∀ x : XR, x * XR.nan = XR.nan := by intro x; cases x <;> rfl
        rw [this]
        cases p0 <;> rfl
    simp only [Model.KernelCalls.garchPy, if_neg hr, bind, Except.bind, e]
    rfl
  · intro h
    simp only [Model.KernelCalls.garchPy, if_neg hr, bind, Except.bind]
    rcases h with e | e <;> rw [e] <;> rfl

/-- C172. A concrete call: residuals 1, -1, 2, lower bound 3/2 for every variance. In float64 the path is `8/5, 3/2, 3/2`;
with the same residuals as integers it is `1, 1, 1`, below the lower bound. -/
theorem C172_witness :
    Model.KernelCalls.garchPy Model.KernelCalls.flt [.fin (3 / 5), .fin (1 / 2), .fin 0] [.fin 1, .fin (-1), .fin 2] (.fin 2)
      (rowsOf [(3 / 2, 100), (3 / 2, 100), (3 / 2, 100)]) = .ok [.fin (8 / 5), .fin (3 / 2), .fin (3 / 2)] ∧
    Model.KernelCalls.garchPy Model.KernelCalls.int64 [.fin (3 / 5), .fin (1 / 2), .fin 0] [1, -1, 2] (.fin 2)
      (rowsOf [(3 / 2, 100), (3 / 2, 100), (3 / 2, 100)]) = .ok [1, 1, 1] := by
  have hc : ∀ x : ℝ, x < 3 / 2 → boundsCheckPy (.fin x) (.fin (3 / 2), .fin 100) = .fin (3 / 2) := by
    intro x hx
    rw [boundsCheckPy_fin (by norm_num) (by norm_num), clampLog, if_pos hx]
  have b1 : Model.KernelCalls.boundsAt (rowsOf [(3 / 2, 100), (3 / 2, 100), (3 / 2, 100)]) 1 = .ok (.fin (3 / 2), .fin 100) := rfl
  have b2 : Model.KernelCalls.boundsAt (rowsOf [(3 / 2, 100), (3 / 2, 100), (3 / 2, 100)]) 2 = .ok (.fin (3 / 2), .fin 100) := rfl
  constructor
  · simp only [Model.KernelCalls.garchPy, Model.KernelCalls.garchLoop, Model.KernelCalls.flt, List.dropLast, b1, b2,
      bind, Except.bind, pure, Except.pure, XR.fin_add, XR.fin_mul, XR.fin_sq, Nat.reduceAdd]
    rw [if_neg (by simp), hc _ (by norm_num), XR.fin_mul, XR.fin_add, hc _ (by norm_num)]
    norm_num
  · have st : ∀ x : ℝ, 1 ≤ x → x < 2 → Model.KernelCalls.int64.store (.fin x) = .ok 1 := by
      intro x h1 h2
      have : Model.KernelCalls.trunc x = 1 := by
        unfold Model.KernelCalls.trunc
        rw [if_pos (by linarith)]
        exact Int.floor_eq_iff.mpr ⟨by simpa using h1, by norm_num; exact h2⟩
      simp only [Model.KernelCalls.int64, this]
      rw [if_pos]
      unfold Np.IntTy.Fits Np.IntTy.lo Np.IntTy.hi Model.KernelCalls.int64Ty
      norm_num
    have q1 : Model.KernelCalls.int64.sq 1 = .fin 1 := by
      show XR.fin _ = _
      rw [sq_fits (by constructor <;> norm_num)]; norm_num
    have q2 : Model.KernelCalls.int64.sq (-1) = .fin 1 := by
      show XR.fin _ = _
      rw [sq_fits (by constructor <;> norm_num)]; norm_num
    have v1 : Model.KernelCalls.int64.val 1 = .fin 1 := by show XR.fin _ = _; norm_num
    simp only [Model.KernelCalls.garchPy, Model.KernelCalls.garchLoop, List.dropLast, b1, b2, q1, q2, v1,
      bind, Except.bind, pure, Except.pure, XR.fin_add, XR.fin_mul, Nat.reduceAdd]
    rw [if_neg (by simp), st _ (by norm_num) (by norm_num)]
    simp only [v1, XR.fin_add, XR.fin_mul]
    rw [st _ (by norm_num) (by norm_num)]
    simp only [v1, XR.fin_add, XR.fin_mul]
    rw [hc 1 (by norm_num), st (3 / 2) (by norm_num) (by norm_num)]
    simp only [v1, XR.fin_add, XR.fin_mul]
    rw [st _ (by norm_num) (by norm_num)]
    simp only [v1]
    rw [hc 1 (by norm_num), st (3 / 2) (by norm_num) (by norm_num)]

/-- the call of `C172_witness` meets the hypotheses of `C172_garch` -/
example : (∀ r ∈ ([1, -1, 2] : List ℤ), SquareFits r) ∧
    IsRecursion (fun (r s : ℤ) (q : ℝ × ℝ) => towardZero (clampLog q.1 q.2 (towardZero (3 / 5 + 1 / 2 * r ^ 2 + 0 * s))))
      (towardZero (3 / 5 + (1 / 2 + 0) * 2)) [1, -1, 2] [(3 / 2, 100), (3 / 2, 100), (3 / 2, 100)] [1, 1, 1] := by
  have h : ∀ r ∈ ([1, -1, 2] : List ℤ), SquareFits r := by
    intro r hr
    fin_cases hr <;> (constructor <;> norm_num)
  exact ⟨h, (C172_garch (3 / 5) (1 / 2) 0 2 _ (by simp) h _ (by intro q hq; fin_cases hq <;> norm_num) (by simp)).1 _ C172_witness.2⟩

/-- one residual and a first variance of one half meet the hypotheses of `C172_zero` -/
example : Model.KernelCalls.garchPy Model.KernelCalls.int64 [.fin (1 / 2), .fin 0, .fin 0] [3] (.fin 2) [] = .ok [0] := by
  have ht : Model.KernelCalls.trunc (1 / 2 + (0 + 0) * 2) = 0 := by
    unfold Model.KernelCalls.trunc
    rw [if_pos (by norm_num)]
    exact Int.floor_eq_zero_iff.mpr ⟨by norm_num, by norm_num⟩
  have st : Model.KernelCalls.int64.store (.fin (1 / 2 + (0 + 0) * 2)) = .ok 0 := by
    simp only [Model.KernelCalls.int64, ht]
    rw [if_pos]
    unfold Np.IntTy.Fits Np.IntTy.lo Np.IntTy.hi Model.KernelCalls.int64Ty
    norm_num
  simp only [Model.KernelCalls.garchPy, Model.KernelCalls.garchLoop, List.dropLast, bind, Except.bind, pure, Except.pure,
    XR.fin_add, XR.fin_mul]
  rw [if_neg (by simp), st]

/-- a call meeting the hypotheses of `C172_extension_nan`: residuals -1, 5 and any parameters -/
example (p0 p1 p2 bc : XR) : ∃ s, Model.KernelCalls.garchExt [p0, p1, p2]
    (([-1, 5] : List ℤ).map Model.KernelCalls.reinterpret) bc [.fin 1, .fin 2, .fin 1, .fin 2] = some s ∧ s.length = 2 := by
  refine ⟨_, rfl, rfl⟩

/-! ### Concrete cases of the theorems above -/

example := (C171_params_python Model.KernelCalls.flt [1, 0] [1, 2] 1 [[1, 2], [1, 2]]).1 (by simp)
example := (C171_params_extension [1, 0, 0] [7] [1, 2] 1 [1, 2, 1, 2]).1 rfl
example := C171_python 1 0 0 0 1 [1, 2] [[1, 2], [1, 2, 5]] (by simp)
example := C171_few_columns 1 0 0 1 [1, 2] (by simp) [[1], [1]] (by simp)
example := C171_extension 1 0 0 0 1 [1, 2] (by simp) 3 (by norm_num) [[1, 2, 3], [4, 5, 6]] (by simp) (by simp)
example := (C172_reinterpreted 5).1 (by norm_num) (by norm_num)
example : Model.KernelCalls.garchPy Model.KernelCalls.int64 [.nan, 0, 0] [1, 2] 1 [[1, 2], [1, 2]] = .error .valueError :=
  (C172_not_finite .nan 0 0 1 [1, 2] (by simp) [[1, 2], [1, 2]]).1 (Or.inl rfl)

end
end Frds.Props
