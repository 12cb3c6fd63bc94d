import Verif.Lemmas.Conc

/-! C177: concurrent absorption ratios. -/
namespace Frds.Props
noncomputable section
open Frds Frds.Model Frds.Model.Conc Classical
set_option linter.unusedSimpArgs false
set_option linter.unusedVariables false

namespace ConcAr

/-- what is cached is what would be computed -/
def Valid (eig : EigRoutine) (o : ArObj) : Prop :=
  (∀ c, o.cov = some c → c = npCovMat o.returns) ∧ ∀ e, o.eig = some e → npEigvals eig (npCovMat o.returns) = .ok e

/-- what the threads do to the object -/
def G (eig : EigRoutine) (o o' : ArObj) : Prop :=
  o'.returns = o.returns ∧ (Valid eig o → Valid eig o') ∧ (∀ c, o.cov = some c → o'.cov.isSome) ∧
    ∀ e, o.eig = some e → o'.eig.isSome

theorem G_refl (eig : EigRoutine) (o : ArObj) : G eig o o :=
  ⟨rfl, id, fun c h => by rw [h]; rfl, fun c h => by rw [h]; rfl⟩

theorem G_trans (eig : EigRoutine) (a b c : ArObj) (h : G eig a b) (h' : G eig b c) : G eig a c := by
  refine ⟨h'.1.trans h.1, fun hv => h'.2.1 (h.2.1 hv), fun x hx => ?_, fun x hx => ?_⟩
  · obtain ⟨y, hy⟩ := Option.isSome_iff_exists.mp (h.2.2.1 x hx)
    exact h'.2.2.1 y hy
  · obtain ⟨y, hy⟩ := Option.isSome_iff_exists.mp (h.2.2.2 x hx)
    exact h'.2.2.2 y hy

theorem ok_cov (eig : EigRoutine) {o : ArObj} (hv : Valid eig o) :
    Ok (G eig) (fun r s => r = .ok (npCovMat o.returns) ∧ s.returns = o.returns ∧ Valid eig s) covProg o := by
  unfold covProg
  simp only [Prog.bind_eq]
  refine Ok.bind (G_refl eig) (Ok.get ?_)
  intro s1 h1 s2 h2
  simp only
  have v1 := h1.2.1 hv
  have v2 := h2.2.1 v1
  cases hc : s1.cov with
  | some c =>
    simp only
    intro s3 h3
    have := v1.1 c hc
    exact ⟨by rw [this, h1.1], by rw [h3.1, h2.1, h1.1], h3.2.1 v2⟩
  | none =>
    simp only
    refine Ok.bind (G_refl eig) (Ok.get ?_)
    intro s3 h3 s4 h4
    simp only
    refine Ok.bind (G_refl eig) (Ok.put ?_)
    intro s5 h5
    have e3 : s3.returns = o.returns := by rw [h3.1, h2.1, h1.1]
    have e5 : s5.returns = o.returns := by rw [h5.1, h4.1, e3]
    refine ⟨⟨rfl, fun hv5 => ⟨fun c hc' => ?_, fun e he => hv5.2 e he⟩, fun c _ => rfl, fun e he => ?_⟩, ?_⟩
    · simp only [Option.some.injEq] at hc'
      rw [← hc', e3]
      show npCovMat o.returns = npCovMat s5.returns
      rw [e5]
    · show s5.eig.isSome = true
      rw [he]; rfl
    · intro s6 h6 s7 h7
      refine ⟨by rw [e3], ?_, ?_⟩
      · rw [h7.1, h6.1]; exact e5
      · refine h7.2.1 (h6.2.1 ⟨fun c hc' => ?_, fun e he => ?_⟩)
        · simp only [Option.some.injEq] at hc'
          rw [← hc', e3]
          show npCovMat o.returns = npCovMat s5.returns
          rw [e5]
        · exact (h5.2.1 (h4.2.1 (h3.2.1 v2))).2 e he

theorem ok_eig (eig : EigRoutine) {o : ArObj} (hv : Valid eig o) :
    Ok (G eig) (fun r s => r = npEigvals eig (npCovMat o.returns) ∧ s.returns = o.returns ∧ Valid eig s) (eigProg eig) o := by
  unfold eigProg
  simp only [Prog.bind_eq]
  refine Ok.bind (G_refl eig) (Ok.get ?_)
  intro s1 h1 s2 h2
  simp only
  have v1 := h1.2.1 hv
  have v2 := h2.2.1 v1
  cases hc : s1.eig with
  | some e =>
    simp only
    intro s3 h3
    have := v1.2 e hc
    refine ⟨?_, by rw [h3.1, h2.1, h1.1], h3.2.1 v2⟩
    rw [h1.1] at this
    rw [this]
  | none =>
    simp only
    refine Ok.bind (G_refl eig) ((ok_cov eig v2).weaken ?_)
    rintro r s3 ⟨rfl, e3, v3⟩
    simp only
    refine Ok.bind (G_refl eig) (Ok.lift ?_)
    intro s4 h4
    have e4 : s4.returns = o.returns := by rw [h4.1, e3, h2.1, h1.1]
    have e2 : s2.returns = o.returns := by rw [h2.1, h1.1]
    have v4 := h4.2.1 v3
    rw [e2]
    cases hE : npEigvals eig (npCovMat o.returns) with
    | error x => exact ⟨rfl, e4, v4⟩
    | ok e =>
      simp only
      refine Ok.bind (G_refl eig) (Ok.put ?_)
      intro s5 h5
      have e5 : s5.returns = o.returns := by rw [h5.1, e4]
      have v5 := h5.2.1 v4
      have w : Valid eig { s5 with eig := some e } := by
        refine ⟨v5.1, fun e' he' => ?_⟩
        simp only [Option.some.injEq] at he'
        subst he'
        show npEigvals eig (npCovMat s5.returns) = _
        rw [e5, hE]
      refine ⟨⟨rfl, fun _ => w, fun c hc' => ?_, fun _ _ => rfl⟩, ?_⟩
      · show s5.cov.isSome = true
        rw [hc']; rfl
      · intro s6 h6 s7 h7
        exact ⟨rfl, by rw [h7.1, h6.1]; exact e5, h7.2.1 (h6.2.1 w)⟩

theorem new_estimate (eig : EigRoutine) (r : Returns) (f : XR) : ((ArObj.new r).estimate eig f).2 =
    match npEigvals eig (npCovMat r) with
    | .error x => .error x
    | .ok e => match decimalInt (f * .fin (r.n : ℝ)) with
      | .error x => .error x
      | .ok num => .ok (.fin (pySliceFrom (e.mergeSort (fun a b => decide (a ≤ b)))
          (((e.mergeSort (fun a b => decide (a ≤ b))).length : ℤ) - num)).sum / npTrace (npCovMat r)) := by
  unfold ArObj.estimate ArObj.readEig ArObj.readCov ArObj.new
  simp only
  cases npEigvals eig (npCovMat r) with
  | error x => rfl
  | ok e =>
    simp only
    cases decimalInt (f * .fin (r.n : ℝ)) <;> rfl

theorem ok_ar (eig : EigRoutine) {o : ArObj} (hv : Valid eig o) (f : XR) :
    Ok (G eig) (fun r s => r = ((ArObj.new o.returns).estimate eig f).2 ∧ s.returns = o.returns ∧ Valid eig s)
      (arProg eig f) o := by
  unfold arProg
  simp only [Prog.bind_eq]
  refine Ok.bind (G_refl eig) (Ok.get ?_)
  intro s1 h1 s2 h2
  simp only
  have v2 := h2.2.1 (h1.2.1 hv)
  have e2 : s2.returns = o.returns := by rw [h2.1, h1.1]
  rw [new_estimate, h1.1]
  refine Ok.bind (G_refl eig) ((ok_eig eig v2).weaken ?_)
  rintro r s3 ⟨rfl, e3, v3⟩
  rw [e2] at e3 ⊢
  cases hE : npEigvals eig (npCovMat o.returns) with
  | error x => exact ⟨rfl, e3, v3⟩
  | ok e =>
    simp only
    refine Ok.bind (G_refl eig) (Ok.lift ?_)
    intro s4 h4
    have v4 := h4.2.1 v3
    have e4 : s4.returns = o.returns := by rw [h4.1, e3]
    cases hd : decimalInt (f * .fin (o.returns.n : ℝ)) with
    | error x => exact ⟨rfl, e4, v4⟩
    | ok num =>
      simp only
      refine Ok.bind (G_refl eig) ((ok_cov eig v4).weaken ?_)
      rintro r s5 ⟨rfl, e5, v5⟩
      simp only
      intro s6 h6
      rw [e4] at e5 ⊢
      exact ⟨rfl, by rw [h6.1, e5], h6.2.1 v5⟩

end ConcAr
open ConcAr

/-- C177. Any number of threads call `estimate`, each with its own fraction, on one object whose caches, if filled, hold what
would be computed (a new object, or one used before). Under every schedule each thread that finishes gets exactly what it would
get from a new object with the same returns, and afterwards the object's returns are the same and its caches are right. -/
theorem C177_absorption {ι : Type} (eig : EigRoutine) (o : ArObj)
    (hcov : ∀ c, o.cov = some c → c = npCovMat o.returns)
    (heig : ∀ e, o.eig = some e → npEigvals eig (npCovMat o.returns) = .ok e)
    (f : ι → XR) (sched : List ι) (c : Sys ι ArObj XR) (hc : c = (Sys.mk o fun i => arProg eig (f i)).exec sched) :
    (∀ i r, c.result i = some r → r = ((ArObj.new o.returns).estimate eig (f i)).2) ∧
    c.shared.returns = o.returns ∧ (∀ m, c.shared.cov = some m → m = npCovMat o.returns) ∧
    ∀ e, c.shared.eig = some e → npEigvals eig (npCovMat o.returns) = .ok e := by
  subst hc
  have hok : ∀ i, Ok (G eig) (fun r s => r = ((ArObj.new o.returns).estimate eig (f i)).2 ∧ s.returns = o.returns ∧ Valid eig s)
      ((Sys.mk o fun i => arProg eig (f i)).thread i) o := fun i => ok_ar eig ⟨hcov, heig⟩ (f i)
  have hG := (Ok.sound (G_refl eig) (G_trans eig) (c := Sys.mk o fun i => arProg eig (f i)) hok sched).1
  refine ⟨fun i r hr => (Ok.result (G_refl eig) (G_trans eig) (c := Sys.mk o fun i => arProg eig (f i)) hok sched hr).1, hG.1, ?_⟩
  have hv := hG.2.1 ⟨hcov, heig⟩
  refine ⟨fun m hm => ?_, fun e hm => ?_⟩
  · have := hv.1 m hm
    rwa [hG.1] at this
  · have := hv.2 e hm
    rwa [hG.1] at this

/-- C177. A thread that is scheduled again and again finishes: the calls do not block one another. -/
theorem C177_finishes {ι : Type} (eig : EigRoutine) (o : ArObj) (f : ι → XR) (σ : ℕ → ι) (i : ι)
    (hi : ∀ n, ∃ m, n ≤ m ∧ σ m = i) :
    ∃ n, (((Sys.mk o fun i => arProg eig (f i)).exec (Sys.upTo σ n)).result i).isSome :=
  Sys.terminates _ σ i hi

/-- C177. With a single thread the call is `estimate` on the object as it is. -/
theorem C177_alone (eig : EigRoutine) (o : ArObj) (f : XR) : (arProg eig f).run o = o.estimate eig f := by
  have hcov : ∀ o : ArObj, covProg.run o = (o.readCov.1, .ok o.readCov.2) := by
    intro o
    unfold covProg ArObj.readCov
    simp only [Prog.bind_eq, Prog.run_bind, Prog.run_get]
    cases h : o.cov with
    | some c => rfl
    | none => rfl
  have heig : (eigProg eig).run o = o.readEig eig := by
    unfold eigProg ArObj.readEig
    simp only [Prog.bind_eq, Prog.run_bind, Prog.run_get]
    cases h : o.eig with
    | some c => rfl
    | none =>
      simp only [Prog.run_bind, hcov, Prog.run_lift]
      cases npEigvals eig o.readCov.2 with
      | error x => rfl
      | ok e => rfl
  unfold arProg ArObj.estimate
  simp only [Prog.bind_eq, Prog.run_bind, Prog.run_get, heig]
  generalize o.readEig eig = w
  obtain ⟨o1, e⟩ := w
  cases e with
  | error x => rfl
  | ok e =>
    simp only [Prog.run_lift]
    cases decimalInt (f * .fin (o.returns.n : ℝ)) with
    | error x => rfl
    | ok num =>
      simp only [hcov]
      rfl

/-- two threads on a new object -/
example (eig : EigRoutine) (r : Returns) (sched : List Bool) (i : Bool) (v : Except PyErr XR)
    (h : ((Sys.mk (ArObj.new r) fun b : Bool => arProg eig (if b then .fin (1 / 5) else 1)).exec sched).result i = some v) :
    v = ((ArObj.new r).estimate eig (if i then .fin (1 / 5) else 1)).2 :=
  (C177_absorption eig (ArObj.new r) (fun _ h => by cases h) (fun _ h => by cases h)
    (fun b : Bool => if b then .fin (1 / 5) else 1) sched _ rfl).1 i v h

/-- the schedule alternating between two threads gives both of them a result -/
example (eig : EigRoutine) (r : Returns) : ∃ n,
    (((Sys.mk (ArObj.new r) fun _ : Bool => arProg eig 1).exec (Sys.upTo (fun n => n % 2 = 0) n)).result true).isSome :=
  C177_finishes eig _ _ _ true fun n => ⟨2 * n, by omega, by simp⟩

end
end Frds.Props
