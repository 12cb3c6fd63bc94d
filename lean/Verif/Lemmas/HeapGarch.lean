import Verif.Lemmas.HeapArr
import Verif.Lemmas.Garch
import Verif.Model.HeapGarch

/-! The array code of `_garch.py` refines the list functions of `Model/Garch.lean`. -/
namespace Frds
noncomputable section
open Frds Frds.Model Frds.Model.Op Frds.Model.HeapGarch Frds.Spec Classical
set_option linter.unusedSimpArgs false

namespace HeapGarch

theorem bind_def {α β : Type} (m : Op α) (k : α → Op β) : (m >>= k) = andThen m k := rfl
theorem pure_def {α : Type} (a : α) : (pure a : Op α) = Op.ret a := rfl

theorem read_length (H : Heap) (r : Ref) : (H.read r).length = r.idx.length := by simp [Heap.read]

theorem alloc_eq (l : List XR) (H : Heap) : ∃ H', alloc l H = (H', .ok ⟨H.next, List.range l.length⟩) ∧ Keeps H.next H H' ∧
    H'.next = H.next + 1 ∧ H'.read ⟨H.next, List.range l.length⟩ = l := by
  have h := Refines.alloc (H := H) l
  refine ⟨_, rfl, h.1, rfl, h.2.1⟩

theorem lift_alloc (x : Except PyErr (List XR)) {H : Heap} :
    Refines H.next (andThen (Op.lift x) fun l => alloc l) H x (Refines.Fresh H.next) := by
  cases x with
  | error e => exact Refines.error rfl (.refl _ _)
  | ok l => exact Refines.alloc l

/-- a loop that fills a new array from its first element on: the result is the sequence `out` -/
theorem fill {T : ℕ} (hT : 0 < T) {H H1 : Heap} {s : Ref} (hs : Dense s T) (out : List XR) (ho : out.length = T) (s0 : XR)
    (h0 : out[0]? = some s0) (hk : Keeps H.next H H1) (hn : H.next ≤ s.buf) (hn1 : s.buf < H1.next) (body : ℕ → Op Unit)
    (hbody : ∀ t H' x, 0 < t → t < T → Keeps H.next H H' → (∀ b, b ≠ s.buf → H'.cells b = H1.cells b) → out[t - 1]? = some x →
      H'.cells s.buf (t - 1) = x →
      ∃ v H'', out[t]? = some v ∧ body t H' = (H'', .ok ()) ∧ Only s.buf H' H'' ∧ H''.cells s.buf t = v ∧
        ∀ i < t, H''.cells s.buf i = H'.cells s.buf i) :
    Refines H.next (andThen (setItem s 0 s0) fun _ => andThen (each body (List.range' 1 (T - 1))) fun _ => Op.ret s) H1 (.ok out)
      (Refines.Fresh H.next) := by
  have hget : ∀ t < T, ∃ v, out[t]? = some v := fun t ht => ⟨out[t], List.getElem?_eq_getElem _⟩
  obtain ⟨H3, g1, g2, g3⟩ := each_fill s.buf body (fun i => (out[i]?).getD .nan) (H1.write s.buf 0 s0) (T - 1) 1
    (by intro i hi; obtain rfl : i = 0 := by omega
        rw [write_same, h0]; rfl)
    (by
      intro t H' ht1 ht2 hO hp
      obtain ⟨x, hx⟩ := hget (t - 1) (by omega)
      have hO' : Only s.buf H1 H' := (Only.write H1 s.buf 0 s0).trans hO
      obtain ⟨v, H'', k1, k2, k3, k4, k5⟩ := hbody t H' x (by omega) (by omega)
        ⟨hk.next.trans hO'.1.ge, fun b hb => (hO'.2 b (by omega)).trans (hk.cells b hb)⟩ hO'.2 hx (by
          rw [hp (t - 1) (by omega), hx]; rfl)
      exact ⟨H'', k2, k3, by rw [k4, k1]; rfl, k5⟩)
  have hO : Only s.buf H1 H3 := (Only.write H1 s.buf 0 s0).trans g2
  refine Refines.ok (a := s) (H' := H3) ?_ (hO.keeps hn) ⟨?_, hn, by rw [hO.1]; exact hn1, by rw [hs, List.length_range, ho]⟩
  · unfold andThen
    rw [setItem_dense hs hT]
    simp only
    rw [g1]
    rfl
  · rw [read_dense hs]
    apply List.ext_getElem
    · simp [ho]
    · intro i h1 h2
      simp only [List.getElem_map, List.getElem_range]
      rw [g3 i (by simp at h1; omega), List.getElem?_eq_getElem h2]; rfl

theorem empty_list {r : Ref} {H : Heap} (h : ¬ 0 < r.idx.length) : H.read r = [] := by
  apply List.eq_nil_of_length_eq_zero
  rw [read_length]; omega

/-! ### ewma -/

theorem ewmaLoopPy_get (lam v : XR) (l : List XR) (t : ℕ) (x y : XR) (hx : (v :: ewmaLoopPy lam v l)[t]? = some x) (hy : l[t]? = some y) :
    (v :: ewmaLoopPy lam v l)[t + 1]? = some (lam * x + (1 - lam) * y) := by
  induction l generalizing v t with
  | nil => simp at hy
  | cons a u ih =>
    cases t with
    | zero => simp at hx hy; subst hx hy; simp [ewmaLoopPy]
    | succ t =>
      have := ih (lam * v + (1 - lam) * a) t (by simpa [ewmaLoopPy] using hx) (by simpa using hy)
      simpa [ewmaLoopPy] using this

theorem ewmaLoopPy_length (lam v : XR) (l : List XR) : (ewmaLoopPy lam v l).length = l.length := by
  induction l generalizing v with
  | nil => rfl
  | cons a t ih => simp [ewmaLoopPy, ih]

theorem ewmaH_refines (cpp : Bool) (r : Ref) (initial lam : XR) (H : Heap) (hr : r.buf < H.next) :
    Refines H.next (ewmaH cpp r initial lam) H (ewma cpp (H.read r) initial lam) (Refines.Fresh H.next) := by
  unfold ewmaH
  cases cpp with
  | true =>
    rw [if_pos rfl]
    simp only [bind_def]
    refine Refines.contents ?_
    exact lift_alloc _
  | false =>
    rw [if_neg (by simp)]
    simp only [bind_def]
    by_cases hT : 0 < r.idx.length
    · have hne : H.read r ≠ [] := by
        intro h; rw [← read_length H, h] at hT; simp at hT
      have hE : Keeps H.next H { H with next := H.next + 1 } := ⟨Nat.le_succ _, fun _ _ => rfl⟩
      have hs : Dense ⟨H.next, List.range r.idx.length⟩ r.idx.length := rfl
      -- the array of squares
      have hsteps : ∀ H0 : Heap, H0.next = H.next + 1 → Keeps H.next H H0 →
          ∃ H2 q, alloc ((H0.read r).map XR.sq) H0 = (H2, .ok q) ∧ H2.read q = (H.read r).map XR.sq ∧ Keeps (H.next + 1) H0 H2 ∧
            H.next + 1 ≤ q.buf := by
        intro H0 h0 hk
        obtain ⟨H2, a1, a2, a3, a4⟩ := alloc_eq ((H0.read r).map XR.sq) H0
        refine ⟨H2, _, a1, by rw [a4, hk.read hr], h0 ▸ a2, by simp [h0]⟩
      set s : Ref := ⟨H.next, List.range r.idx.length⟩ with hsd
      set H0 : Heap := ({ H with next := H.next + 1 } : Heap).write s.buf 0 initial with hH0
      have hK0 : Keeps H.next H H0 := hE.trans ((Only.write _ _ _ _).keeps (le_refl _)) (le_refl _)
      obtain ⟨H2, q, a1, a2, a3, a4⟩ := hsteps H0 rfl hK0
      have hlist : ewma false (H.read r) initial lam = .ok (initial :: ewmaLoopPy lam initial ((H.read r).map XR.sq).dropLast) := by
        unfold ewma; rw [if_neg hne]; rfl
      rw [hlist]
      have hlen : (initial :: ewmaLoopPy lam initial ((H.read r).map XR.sq).dropLast).length = r.idx.length := by
        simp [ewmaLoopPy_length, read_length]; omega
      -- the first element is already set: setting it again changes nothing
      have hw : H2.write s.buf 0 initial = H2 := by
        have : H2.cells s.buf 0 = initial := by
          rw [a3.cells s.buf (Nat.lt_succ_self _), hH0, write_same]
        unfold Heap.write
        congr 1
        funext b i
        by_cases h : b = s.buf ∧ i = 0
        · rw [if_pos h, h.1, h.2, this]
        · rw [if_neg h]
      have main := fill (H := H) (H1 := H2) hT hs _ hlen initial rfl (hK0.trans (a3.mono (Nat.le_succ _)) (le_refl _)) (le_refl _)
        (by have := a3.next; show H.next < _; rw [hH0] at this; exact this)
        (fun t => andThen (getItem s (t - 1)) fun v => andThen (getItem q (t - 1)) fun r2 => setItem s t (lam * v + (1 - lam) * r2))
        (by
          intro t H' x ht1 ht2 hk hO hx hc
          obtain ⟨y, hy⟩ : ∃ y, ((H.read r).map XR.sq)[t - 1]? = some y :=
            ⟨_, List.getElem?_eq_getElem (by simp [read_length]; omega)⟩
          have hq : (H'.read q)[t - 1]? = some y := by
            have : H'.read q = H2.read q := by
              unfold Heap.read; rw [hO q.buf (by show q.buf ≠ H.next; omega)]
            rw [this, a2]; exact hy
          have hg := ewmaLoopPy_get lam initial ((H.read r).map XR.sq).dropLast (t - 1) x y hx (by
            rw [List.getElem?_dropLast, if_pos (by simp [read_length]; omega)]; exact hy)
          rw [Nat.sub_add_cancel ht1] at hg
          refine ⟨_, H'.write s.buf t (lam * x + (1 - lam) * y), hg, ?_, .write _ _ _ _, write_same _ _ _ _,
            fun i hi => write_other _ _ _ _ _ (by omega)⟩
          unfold andThen
          rw [getItem_dense hs (by omega)]
          simp only
          rw [getItem_read hq]
          simp only
          rw [setItem_dense hs ht2, hc])
      obtain ⟨m1, m2⟩ := main
      have hrun : andThen (Op.empty r.idx.length) (fun variance => andThen (setItem variance 0 initial) fun _ =>
          andThen (Op.contents r) fun x => andThen (alloc (x.map XR.sq)) fun squared =>
          andThen (each (fun t => andThen (getItem variance (t - 1)) fun v => andThen (getItem squared (t - 1)) fun r2 =>
            setItem variance t (lam * v + (1 - lam) * r2)) (List.range' 1 (r.idx.length - 1))) fun _ => Op.ret variance) H
        = (andThen (setItem s 0 initial) fun _ => andThen (each (fun t => andThen (getItem s (t - 1)) fun v => andThen (getItem q (t - 1))
            fun r2 => setItem s t (lam * v + (1 - lam) * r2)) (List.range' 1 (r.idx.length - 1))) fun _ => Op.ret s) H2 := by
        conv_lhs => unfold andThen
        simp only [Op.empty]
        rw [← hsd, setItem_dense hs hT]
        simp only [Op.contents]
        rw [← hH0, a1]
        conv_rhs => unfold andThen
        rw [setItem_dense hs hT, hw]
      unfold Refines
      rw [hrun]
      exact ⟨(hK0.trans (a3.mono (Nat.le_succ _)) (le_refl _)).trans m1 (le_refl _), m2⟩
    · have hnil := empty_list (H := H) hT
      have hlen : r.idx.length = 0 := by omega
      rw [hnil]
      refine Refines.error (H' := { H with next := H.next + 1 }) ?_ ⟨Nat.le_succ _, fun _ _ => rfl⟩
      unfold andThen
      simp [Op.empty, setItem, hlen]

/-! ### variance paths -/

/-- the recursion the assignments of one iteration perform -/
def stepNext (step : Step) (r s : XR) : XR :=
  match step.more r with
  | none => step.first r s
  | some d => step.first r s + d

theorem varianceH_refines (cpp : Bool) (step : Step) (next : XR → XR → XR) (s0 : XR) (r : Ref) (vb : Ref × Ref) (H : Heap) (hr : r.buf < H.next)
    (h1 : vb.1.buf < H.next) (h2 : vb.2.buf < H.next) (l1 : vb.1.idx.length = r.idx.length) (l2 : vb.2.idx.length = r.idx.length) :
    Refines H.next (varianceH cpp step next s0 r vb) H
      (variancePath (if cpp then next else stepNext step) (boundsCheck cpp) s0 (H.read r) (List.zip (H.read vb.1) (H.read vb.2)))
      (Refines.Fresh H.next) := by
  unfold varianceH
  cases cpp with
  | true =>
    rw [if_pos rfl, if_pos rfl]
    simp only [bind_def]
    refine Refines.contents (Refines.contents (Refines.contents ?_))
    exact lift_alloc _
  | false =>
    rw [if_neg (by simp), if_neg (by simp)]
    simp only [bind_def]
    by_cases hT : 0 < r.idx.length
    · have hne : H.read r ≠ [] := by
        intro h; rw [← read_length H, h] at hT; simp at hT
      have hzip : (List.zip (H.read vb.1) (H.read vb.2)).length = (H.read r).length := by
        simp [read_length, l1, l2]
      have hp := variancePath_ok (next := stepNext step) (chk := boundsCheck false) (s0 := s0) hne
        (fun _ => hzip.ge)
      have hrec := variancePath_recursion hp
      rw [hp]
      obtain ⟨H1, a1, a2, a3, a4⟩ := alloc_eq (List.replicate r.idx.length 0) H
      rw [List.length_replicate] at a1
      set s : Ref := ⟨H.next, List.range r.idx.length⟩ with hsd
      have hs : Dense s r.idx.length := rfl
      have hlen := hrec.1
      rw [read_length] at hlen
      have main := fill (H := H) (H1 := H1) hT hs _ hlen s0 hrec.2.1 a2 (le_refl _) (by show H.next < _; omega)
        (fun t => andThen (getItem r (t - 1)) fun x => andThen (getItem s (t - 1)) fun v => andThen (setItem s t (step.first x v)) fun _ =>
          andThen (step.add s t x) fun _ => andThen (getItem s t) fun v => andThen (getItem vb.1 t) fun lo => andThen (getItem vb.2 t) fun hi =>
          setItem s t (boundsCheck false v (lo, hi)))
        (by
          intro t H' x ht1 ht2 hk hO hx hc
          have keep : ∀ H'', Only s.buf H' H'' → ∀ q : Ref, q.buf < H.next → H''.read q = H.read q := by
            intro H'' ho q hq
            rw [← hk.read hq]
            exact (ho.keeps (le_refl _)).read hq
          obtain ⟨y, hy⟩ : ∃ y, (H.read r)[t - 1]? = some y := ⟨_, List.getElem?_eq_getElem (by rw [read_length]; omega)⟩
          obtain ⟨lo, hlo⟩ : ∃ y, (H.read vb.1)[t]? = some y := ⟨_, List.getElem?_eq_getElem (by rw [read_length]; omega)⟩
          obtain ⟨hi, hhi⟩ : ∃ y, (H.read vb.2)[t]? = some y := ⟨_, List.getElem?_eq_getElem (by rw [read_length]; omega)⟩
          have hz : (List.zip (H.read vb.1) (H.read vb.2))[t - 1 + 1]? = some (lo, hi) := by
            rw [Nat.sub_add_cancel ht1, List.getElem?_zip_eq_some]; exact ⟨hlo, hhi⟩
          have hg := hrec.2.2 (t - 1) y x (lo, hi) (by rw [read_length]; omega) hy hx hz
          rw [Nat.sub_add_cancel ht1] at hg
          -- the assignments
          have hadd : ∃ Ha, step.add s t y (H'.write s.buf t (step.first y x)) = (Ha, .ok ()) ∧ Only s.buf H' Ha ∧
              Ha.cells s.buf t = stepNext step y x ∧ ∀ i < t, Ha.cells s.buf i = H'.cells s.buf i := by
            unfold Step.add stepNext
            cases step.more y with
            | none =>
              exact ⟨_, rfl, .write _ _ _ _, write_same _ _ _ _, fun i hi => write_other _ _ _ _ _ (by omega)⟩
            | some d =>
              refine ⟨(H'.write s.buf t (step.first y x)).write s.buf t (step.first y x + d), ?_, (Only.write _ _ _ _).trans (.write _ _ _ _),
                write_same _ _ _ _, fun i hi => ?_⟩
              · simp only [bind_def]
                unfold andThen
                rw [getItem_dense hs ht2]
                simp only
                rw [setItem_dense hs ht2, write_same]
              · rw [write_other _ _ _ _ _ (by omega), write_other _ _ _ _ _ (by omega)]
          obtain ⟨Ha, b1, b2, b3, b4⟩ := hadd
          refine ⟨_, Ha.write s.buf t (boundsCheck false (stepNext step y x) (lo, hi)), hg, ?_, b2.trans (.write _ _ _ _), write_same _ _ _ _,
            fun i hi => by rw [write_other _ _ _ _ _ (by omega), b4 i hi]⟩
          unfold andThen
          rw [getItem_read (v := y) (by rw [hk.read hr]; exact hy)]
          simp only
          rw [getItem_dense hs (by omega)]
          simp only
          rw [setItem_dense hs ht2, hc]
          simp only
          rw [b1]
          simp only
          rw [getItem_dense hs ht2]
          simp only
          rw [getItem_read (v := lo) (by rw [keep Ha b2 _ h1]; exact hlo)]
          simp only
          rw [getItem_read (v := hi) (by rw [keep Ha b2 _ h2]; exact hhi)]
          simp only
          rw [setItem_dense hs ht2, b3])
      obtain ⟨m1, m2⟩ := main
      unfold Refines
      conv => enter [1, 3]; unfold andThen
      conv => enter [2]; unfold andThen
      rw [a1]
      exact ⟨a2.trans m1 (le_refl _), m2⟩
    · have hnil := empty_list (H := H) hT
      have hlen : r.idx.length = 0 := by omega
      rw [hnil]
      obtain ⟨H1, a1, a2, a3, a4⟩ := alloc_eq (List.replicate r.idx.length 0) H
      refine Refines.error (H' := H1) ?_ a2
      unfold andThen
      rw [a1]
      simp [setItem, hlen]

theorem forecastH_refines (p : GjrVar) (r : Ref) (s0 : XR) (H : Heap) (hr : r.buf < H.next) :
    Refines H.next (forecastH p r s0) H (forecastVariance p (H.read r) s0)
      (fun a l H' => H'.read a = l ∧ H.next ≤ a.buf ∧ a.buf < H'.next) := by
  unfold forecastH forecastVariance
  simp only [bind_def]
  by_cases hT : 0 < r.idx.length
  · have hne : H.read r ≠ [] := by
      intro h; rw [← read_length H, h] at hT; simp at hT
    rw [if_neg hne]
    have hp := variancePath_ok (next := gjrNextPy p) (chk := fun s _ => s) (s0 := s0) hne (bounds := List.replicate (H.read r).length (0, 0))
      (fun _ => by simp)
    have hrec := variancePath_recursion hp
    have hz : List.zip (H.read r).dropLast (List.replicate (H.read r).length ((0 : XR), (0 : XR))).tail
        = (H.read r).dropLast.map fun r => (r, (0, 0)) := by
      have : ∀ (l : List XR) (n : ℕ), l.length = n → List.zip l (List.replicate n ((0 : XR), (0 : XR))) = l.map fun r => (r, (0, 0)) := by
        intro l
        induction l with
        | nil => intro n hn; simp
        | cons a t ih =>
          intro n hn
          obtain ⟨m, rfl⟩ : ∃ m, n = m + 1 := ⟨t.length, by rw [← hn]; rfl⟩
          simp [List.replicate_succ, ih m (by simpa using hn)]
      rw [List.tail_replicate]
      exact this _ _ (by simp)
    rw [hz] at hrec
    generalize hout : varLoop (gjrNextPy p) (fun s _ => s) s0 ((H.read r).dropLast.map fun r => (r, (0, 0))) = out at hrec
    obtain ⟨H1, a1, a2, a3, a4⟩ := alloc_eq (List.replicate r.idx.length 0) H
    rw [List.length_replicate] at a1
    set s : Ref := ⟨H.next, List.range r.idx.length⟩ with hsd
    have hs : Dense s r.idx.length := rfl
    have hlen := hrec.1
    rw [read_length] at hlen
    have main := fill (H := H) (H1 := H1) hT hs _ hlen s0 hrec.2.1 a2 (le_refl _) (by show H.next < _; omega)
      (fun t => andThen (getItem r (t - 1)) fun x => andThen (getItem s (t - 1)) fun v =>
        andThen (setItem s t (p.omega + p.alpha * XR.sq x + p.beta * v)) fun _ => andThen (getItem s t) fun v =>
        setItem s t (v + if x < 0 then p.gamma * XR.sq x else 0))
      (by
        intro t H' x ht1 ht2 hk hO hx hc
        obtain ⟨y, hy⟩ : ∃ y, (H.read r)[t - 1]? = some y := ⟨_, List.getElem?_eq_getElem (by rw [read_length]; omega)⟩
        have hg := hrec.2.2 (t - 1) y x (0, 0) (by rw [read_length]; omega) hy hx (by
          rw [List.getElem?_replicate, if_pos (by rw [read_length]; omega)])
        rw [Nat.sub_add_cancel ht1] at hg
        refine ⟨_, (H'.write s.buf t (p.omega + p.alpha * XR.sq y + p.beta * x)).write s.buf t (gjrNextPy p y x), hg, ?_,
          (Only.write _ _ _ _).trans (.write _ _ _ _), write_same _ _ _ _,
          fun i hi => by rw [write_other _ _ _ _ _ (by omega), write_other _ _ _ _ _ (by omega)]⟩
        unfold andThen
        rw [getItem_read (v := y) (by rw [hk.read hr]; exact hy)]
        simp only
        rw [getItem_dense hs (by omega)]
        simp only
        rw [setItem_dense hs ht2, hc]
        simp only
        rw [getItem_dense hs ht2]
        simp only
        rw [setItem_dense hs ht2, write_same]
        rfl)
    have hb := Refines.bind (n := H.next) (k := fun s : Ref => Op.ret (⟨s.buf, s.idx.tail⟩ : Ref)) (f := fun l : List XR => Except.ok l.tail)
      (S := fun a l H' => H'.read a = l ∧ H.next ≤ a.buf ∧ a.buf < H'.next) main (le_refl _) (by
        rintro a b H' _ ⟨f1, f2, f3, _⟩ _
        refine Refines.ret ⟨?_, f2, f3⟩
        rw [← f1]
        unfold Heap.read
        rw [List.map_tail])
    obtain ⟨m1, m2⟩ := hb
    unfold Refines
    have hrun : (andThen (alloc (List.replicate r.idx.length 0)) fun s => andThen (setItem s 0 s0) fun _ => andThen (each (fun t =>
        andThen (getItem r (t - 1)) fun x => andThen (getItem s (t - 1)) fun v =>
        andThen (setItem s t (p.omega + p.alpha * XR.sq x + p.beta * v)) fun _ => andThen (getItem s t) fun v =>
        setItem s t (v + if x < 0 then p.gamma * XR.sq x else 0)) (List.range' 1 (r.idx.length - 1))) fun _ => Op.ret (⟨s.buf, s.idx.tail⟩ : Ref)) H
      = andThen (andThen (setItem s 0 s0) fun _ => andThen (each (fun t =>
        andThen (getItem r (t - 1)) fun x => andThen (getItem s (t - 1)) fun v =>
        andThen (setItem s t (p.omega + p.alpha * XR.sq x + p.beta * v)) fun _ => andThen (getItem s t) fun v =>
        setItem s t (v + if x < 0 then p.gamma * XR.sq x else 0)) (List.range' 1 (r.idx.length - 1))) fun _ => Op.ret s)
        (fun s => Op.ret (⟨s.buf, s.idx.tail⟩ : Ref)) H1 := by
      have assoc : ∀ {α β γ : Type} (m : Op α) (k : α → Op β) (k' : β → Op γ), andThen (andThen m k) k' = andThen m fun a => andThen (k a) k' := by
        intro α β γ m k k'
        funext G
        unfold andThen
        rcases m G with ⟨G', a | a⟩ <;> rfl
      rw [assoc]
      conv_rhs => enter [2, a]; rw [assoc]
      conv_lhs => unfold andThen
      rw [a1]
      rfl
    rw [hrun]
    exact ⟨a2.trans m1 (le_refl _), m2⟩
  · have hnil := empty_list (H := H) hT
    have hlen : r.idx.length = 0 := by omega
    rw [if_pos hnil]
    obtain ⟨H1, a1, a2, a3, a4⟩ := alloc_eq (List.replicate r.idx.length 0) H
    refine Refines.error (H' := H1) ?_ a2
    unfold andThen
    rw [a1]
    simp [setItem, hlen]

/-! ### the other methods -/

/-- bounds: two new columns, as long as the residuals -/
def FreshPair (n T : ℕ) (a : Ref × Ref) (b : List (XR × XR)) (H' : Heap) : Prop :=
  List.zip (H'.read a.1) (H'.read a.2) = b ∧ n ≤ a.1.buf ∧ n ≤ a.2.buf ∧ a.1.buf < H'.next ∧ a.2.buf < H'.next ∧
  a.1.idx.length = T ∧ a.2.idx.length = T

theorem zip_two {α β γ : Type} (l : List α) (f : α → β) (g : α → γ) : List.zip (l.map f) (l.map g) = l.map fun v => (f v, g v) := by
  induction l with
  | nil => rfl
  | cons a t ih => simp [ih]

theorem ewma_length {cpp : Bool} {x l : List XR} {i lam : XR} (h : ewma cpp x i lam = .ok l) : l.length = x.length := by
  have hc : ∀ (lam v : XR) (l : List XR), (ewmaLoopCpp lam v l).length = l.length := by
    intro lam v l
    induction l generalizing v with
    | nil => rfl
    | cons a t ih => simp [ewmaLoopCpp, ih]
  unfold ewma at h
  by_cases hx : x = []
  · rw [if_pos hx] at h; cases h
  · rw [if_neg hx] at h
    injection h with h
    have := List.length_pos_iff.mpr hx
    rw [← h]
    cases cpp <;> simp [hc, ewmaLoopPy_length] <;> omega

theorem pair_refines {n : ℕ} {H : Heap} (hn : n ≤ H.next) (L : List XR) (f g : XR → XR) :
    Refines n (andThen (alloc (L.map f)) fun a => andThen (alloc (L.map g)) fun b => Op.ret (a, b)) H (.ok (L.map fun v => (f v, g v)))
      (FreshPair n L.length) := by
  obtain ⟨H4, c1, c2, c3, c4⟩ := alloc_eq (L.map f) H
  obtain ⟨H5, d1, d2, d3, d4⟩ := alloc_eq (L.map g) H4
  have hrun : (andThen (alloc (L.map f)) fun a => andThen (alloc (L.map g)) fun b => Op.ret (a, b)) H
      = (H5, .ok (⟨H.next, List.range (L.map f).length⟩, ⟨H4.next, List.range (L.map g).length⟩)) := by
    unfold andThen
    rw [c1]
    simp only
    rw [d1]
    rfl
  refine Refines.ok hrun ((c2.trans d2 (by omega)).mono hn) ⟨?_, hn, ?_, ?_, ?_, by simp, by simp⟩
  · rw [d4, d2.read (by show H.next < _; omega), c4, zip_two]
  · show n ≤ H4.next; omega
  · show H.next < _; omega
  · show H4.next < _; omega

theorem boundsH_refines (cpp : Bool) (r : Ref) (H : Heap) (hr : r.buf < H.next) :
    Refines H.next (varianceBoundsH cpp r) H (varianceBounds cpp (H.read r)) (FreshPair H.next r.idx.length) := by
  unfold varianceBoundsH
  simp only [bind_def]
  obtain ⟨H1, a1, a2, a3, a4⟩ := alloc_eq (decayWeights (min 75 r.idx.length)) H
  set s : Ref := ⟨H.next, List.range (decayWeights (min 75 r.idx.length)).length⟩ with hsd
  have hs : Dense s (decayWeights (min 75 r.idx.length)).length := rfl
  obtain ⟨H2, b1, b2, b3⟩ := inPlace_dense hs (· / (decayWeights (min 75 r.idx.length)).sum) H1
  rw [a4] at b3
  have hk : Keeps H.next H H2 := a2.trans (b2.keeps (le_refl _)) (le_refl _)
  have hn : H.next ≤ H2.next := hk.next
  have hr2 : r.buf < H2.next := by omega
  set m := andThen (ewmaH cpp r (List.zipWith (· * ·) (H2.read s) (((H2.read r).take (min 75 r.idx.length)).map XR.sq)).sum (.fin (94 / 100)))
    fun vb => andThen (Op.contents vb) fun v => andThen (Op.contents r) fun x =>
      andThen (alloc ((v.map fun v => Np.clip v (Np.var x / .fin 100000000) (.fin 10000000 * (1 + npMaxList (x.map XR.sq)))).map (· / .fin 1000000)))
      fun lower => andThen (alloc ((v.map fun v => Np.clip v (Np.var x / .fin 100000000) (.fin 10000000 * (1 + npMaxList (x.map XR.sq)))).map (· * .fin 1000000)))
      fun upper => Op.ret (lower, upper) with hm
  have main : Refines H.next m H2 (varianceBounds cpp (H.read r)) (FreshPair H.next r.idx.length) := by
    have hlist : varianceBounds cpp (H.read r) = (ewma cpp (H2.read r)
        (List.zipWith (· * ·) (H2.read s) (((H2.read r).take (min 75 r.idx.length)).map XR.sq)).sum (.fin (94 / 100))).bind fun v =>
        .ok ((v.map fun v => Np.clip v (Np.var (H.read r) / .fin 100000000)
          (.fin 10000000 * (1 + npMaxList ((H.read r).map XR.sq)))).map fun v => (v / .fin 1000000, v * .fin 1000000)) := by
      rw [hk.read hr, b3]
      unfold varianceBounds
      rw [read_length]
      rfl
    rw [hlist, hm]
    refine Refines.bind (ewmaH_refines cpp r _ _ H2 hr2) hn ?_
    intro vb v H3 k3 f3 hv
    refine Refines.contents (Refines.contents ?_)
    rw [f3.1, (hk.trans k3 hn).read hr]
    have hvl : v.length = r.idx.length := by rw [ewma_length hv, read_length]
    have n3 := k3.next
    have := pair_refines (n := H.next) (H := H3) (by omega) (v.map fun v => Np.clip v (Np.var (H.read r) / .fin 100000000)
          (.fin 10000000 * (1 + npMaxList ((H.read r).map XR.sq)))) (· / .fin 1000000) (· * .fin 1000000)
    rw [List.length_map, hvl] at this
    exact this
  unfold Refines at main ⊢
  have hrun : (andThen (alloc (decayWeights (min 75 r.idx.length))) fun weights => andThen (Op.contents weights) fun w =>
      andThen (inPlace weights (· / w.sum)) fun _ => andThen (Op.contents weights) fun w => andThen (Op.contents r) fun x =>
      andThen (ewmaH cpp r (List.zipWith (· * ·) w ((x.take (min 75 r.idx.length)).map XR.sq)).sum (.fin (94 / 100)))
    fun vb => andThen (Op.contents vb) fun v => andThen (Op.contents r) fun x =>
      andThen (alloc ((v.map fun v => Np.clip v (Np.var x / .fin 100000000) (.fin 10000000 * (1 + npMaxList (x.map XR.sq)))).map (· / .fin 1000000)))
      fun lower => andThen (alloc ((v.map fun v => Np.clip v (Np.var x / .fin 100000000) (.fin 10000000 * (1 + npMaxList (x.map XR.sq)))).map (· * .fin 1000000)))
      fun upper => Op.ret (lower, upper)) H = m H2 := by
    rw [hm]
    conv_lhs => unfold andThen
    rw [a1]
    simp only [Op.contents]
    rw [a4, b1]
    rfl
  rw [hrun]
  exact ⟨hk.trans main.1 (le_refl _), main.2⟩

theorem gridH_refines {P : Type} {path : P → Op Ref} {pathL : P → Except PyErr (List XR)} {r : Ref} {n : ℕ} {H0 : Heap} (hn : n ≤ H0.next)
    (hr : r.buf < n) (hpath : ∀ p H, Keeps n H0 H → Refines H.next (path p) H (pathL p) (Refines.Fresh H.next)) (cands : List P)
    (best : Option P) (H : Heap) (hk : Keeps n H0 H) :
    Refines n (gridH path r best cands) H
      (cands.foldlM (fun best p => do
        let s2 ← pathL p
        return if .ninf < -(loglik (H0.read r) s2) then some p else best) best) (fun a b _ => a = b) := by
  induction cands generalizing best H with
  | nil => exact Refines.ret rfl
  | cons p t ih =>
    rw [List.foldlM_cons, gridH]
    simp only [bind_def]
    show Refines n _ H (Except.bind (Except.bind (pathL p) _) _) _
    have hb : ∀ (f : List XR → Except PyErr (Option P)) (g : Option P → Except PyErr (Option P)),
        Except.bind (Except.bind (pathL p) f) g = Except.bind (pathL p) fun x => Except.bind (f x) g := by
      intro f g; cases pathL p <;> rfl
    rw [hb]
    have hnH : n ≤ H.next := hn.trans hk.next
    refine Refines.bind (hpath p H hk) hnH ?_
    intro s s2 H' k f _
    refine Refines.contents (Refines.contents ?_)
    have hk' : Keeps n H0 H' := hk.trans k hnH
    rw [f.1, hk'.read hr]
    exact ih _ H' hk'

/-- the heap version of a variance function computes its list version -/
def VarOk {V : Type} (var : V → Ref → XR → Ref × Ref → Op Ref) (varL : V → List XR → XR → List (XR × XR) → Except PyErr (List XR)) : Prop :=
  ∀ p r bc vb (H : Heap), r.buf < H.next → vb.1.buf < H.next → vb.2.buf < H.next → vb.1.idx.length = r.idx.length →
    vb.2.idx.length = r.idx.length →
    Refines H.next (var p r bc vb) H (varL p (H.read r) bc (List.zip (H.read vb.1) (H.read vb.2))) (Refines.Fresh H.next)

theorem garchVarOk (cpp : Bool) : VarOk (garchVarianceH cpp) (garchVariance cpp) := by
  intro p r bc vb H h1 h2 h3 h4 h5
  have := varianceH_refines cpp ⟨garchNext p, fun _ => none⟩ (garchNext p) (p.omega + (p.alpha + p.beta) * bc) r vb H h1 h2 h3 h4 h5
  rw [show (if cpp = true then garchNext p else stepNext ⟨garchNext p, fun _ => none⟩) = garchNext p from by
    cases cpp <;> rfl] at this
  exact this

theorem gjrVarOk (cpp : Bool) : VarOk (gjrVarianceH cpp) (gjrVariance cpp) := by
  intro p r bc vb H h1 h2 h3 h4 h5
  have := varianceH_refines cpp ⟨fun r s => p.omega + p.alpha * XR.sq r + p.beta * s,
    fun r => some (if r < 0 then p.gamma * XR.sq r else 0)⟩ (gjrNextCpp p) (p.omega + (p.alpha + p.gamma / 2 + p.beta) * bc) r vb H h1 h2 h3 h4 h5
  rw [show (if cpp = true then gjrNextCpp p else stepNext ⟨fun r s => p.omega + p.alpha * XR.sq r + p.beta * s,
    fun r => some (if r < 0 then p.gamma * XR.sq r else 0)⟩) = (if cpp = true then gjrNextCpp p else gjrNextPy p) from by
    cases cpp <;> rfl] at this
  exact this

/-- the heap version of `starting_values` computes its list version -/
def StartOk {V : Type} (start : Ref → Ref → XR → Ref × Ref → Op (Option V))
    (startL : List XR → List XR → XR → List (XR × XR) → Except PyErr (Option V)) : Prop :=
  ∀ ret r bc vb (H : Heap), ret.buf < H.next → r.buf < H.next → vb.1.buf < H.next → vb.2.buf < H.next → vb.1.idx.length = r.idx.length →
    vb.2.idx.length = r.idx.length →
    Refines H.next (start ret r bc vb) H (startL (H.read ret) (H.read r) bc (List.zip (H.read vb.1) (H.read vb.2))) (fun a b _ => a = b)

theorem garchStartOk (cpp : Bool) : StartOk (garchStartH cpp) (garchStart cpp) := by
  intro ret r bc vb H h0 h1 h2 h3 h4 h5
  unfold garchStartH garchStart gridSearch
  refine Refines.contents ?_
  refine gridH_refines (H0 := H) (le_refl _) h1 ?_ _ _ H (.refl _ _)
  intro p H' hk
  have := garchVarOk cpp p r bc vb H' (lt_of_lt_of_le h1 hk.next) (lt_of_lt_of_le h2 hk.next) (lt_of_lt_of_le h3 hk.next) h4 h5
  rw [hk.read h1, hk.read h2, hk.read h3] at this
  exact this

theorem gjrStartOk (cpp : Bool) : StartOk (gjrStartH cpp) (fun ret r _ _ => gjrStart cpp ret r) := by
  intro ret r bc vb H h0 h1 h2 h3 h4 h5
  unfold gjrStartH gjrStart gridSearch
  simp only [bind_def]
  refine Refines.contents ?_
  show Refines H.next _ H (Except.bind (varianceBounds cpp (H.read r)) _) _
  refine Refines.bind (boundsH_refines cpp r H h1) (le_refl _) ?_
  intro vb vbL H1 k f _
  refine Refines.contents ?_
  rw [k.read h1]
  obtain ⟨f1, f2, f3, f4, f5, f6, f7⟩ := f
  have hr1 : r.buf < H1.next := lt_of_lt_of_le h1 k.next
  have key := gridH_refines (H0 := H1) (r := r) (n := H1.next) (path := fun p => gjrVarianceH cpp p r (backcast (H.read r)) vb)
    (pathL := fun p => gjrVariance cpp p (H.read r) (backcast (H.read r)) vbL) (le_refl _) hr1 (by
      intro p H' hk
      have := gjrVarOk cpp p r (backcast (H.read r)) vb H' (lt_of_lt_of_le hr1 hk.next) (lt_of_lt_of_le f4 hk.next) (lt_of_lt_of_le f5 hk.next)
        f6 f7
      rw [hk.read hr1, hk.read f4, hk.read f5, f1, k.read h1] at this
      exact this) (gjrCands (Np.var (H.read ret))) none H1 (.refl _ _)
  rw [k.read h1] at key
  exact key.mono k.next

theorem residsH_refines {V : Type} (o : HGarch V) (mu : XR) (H : Heap) (h : o.returns.buf < H.next) :
    Refines H.next (residsH o mu) H (.ok (if o.zeroMean then H.read o.returns else demean (H.read o.returns) mu))
      (fun a l H' => H'.read a = l ∧ a.buf < H'.next ∧ a.idx.length = o.returns.idx.length) := by
  unfold residsH
  cases o.zeroMean with
  | true => exact Refines.ret ⟨rfl, h, rfl⟩
  | false =>
    simp only [bind_def, Bool.false_eq_true, if_false]
    refine Refines.contents ?_
    obtain ⟨H', a1, a2, a3, a4⟩ := alloc_eq (demean (H.read o.returns) mu) H
    exact Refines.ok a1 a2 ⟨a4, by show H.next < _; omega, by simp [demean, read_length]⟩

/-- the state in which `fit` evaluates its objective: the residuals are those of `o`, the bounds have one row per day -/
structure Ready {V : Type} (o : HGarch V) (vb : Ref × Ref) (H : Heap) : Prop where
  ret : o.returns.buf < H.next
  lo : vb.1.buf < H.next
  hi : vb.2.buf < H.next
  lol : vb.1.idx.length = o.returns.idx.length
  hil : vb.2.idx.length = o.returns.idx.length

theorem objectiveH_refines {V : Type} {var : V → Ref → XR → Ref × Ref → Op Ref}
    {varL : V → List XR → XR → List (XR × XR) → Except PyErr (List XR)} (hvar : VarOk var varL) (o : HGarch V) (bc : XR) (vb : Ref × Ref)
    (p : XR × V) (H0 H : Heap) (h : Ready o vb H0) (hk : Keeps H0.next H0 H) :
    Refines H0.next (objectiveH var o bc vb p) H
      (modelPath varL (view H0 o) bc (List.zip (H0.read vb.1) (H0.read vb.2)) p)
      (fun a b H' => H'.read a.1 = b.2 ∧ H0.next ≤ a.1.buf ∧ a.1.buf < H'.next ∧ a.2 = -loglik b.1 b.2) := by
  unfold objectiveH
  simp only [bind_def]
  have hlist : modelPath varL (view H0 o) bc (List.zip (H0.read vb.1) (H0.read vb.2)) p
      = (Except.ok (if o.zeroMean then H.read o.returns else demean (H.read o.returns) p.1)).bind fun l =>
        (varL p.2 l bc (List.zip (H0.read vb.1) (H0.read vb.2))).bind fun s2 => .ok (l, s2) := by
    rw [hk.read h.ret]; rfl
  rw [hlist]
  refine Refines.bind (residsH_refines o p.1 H (lt_of_lt_of_le h.ret hk.next)) hk.next ?_
  rintro r l H1 k1 ⟨g1, g2, g3⟩ _
  have kk : Keeps H0.next H0 H1 := hk.trans k1 hk.next
  have hv := hvar p.2 r bc vb H1 g2 (lt_of_lt_of_le h.lo kk.next) (lt_of_lt_of_le h.hi kk.next) (by rw [h.lol, g3]) (by rw [h.hil, g3])
  rw [g1, kk.read h.lo, kk.read h.hi] at hv
  refine Refines.bind hv kk.next ?_
  rintro s s2 H2 k2 ⟨f1, f2, f3, f4⟩ _
  refine Refines.contents (Refines.contents ?_)
  rw [k2.read g2, f1, g1]
  exact Refines.ret ⟨f1, (by have := kk.next; show H0.next ≤ s.buf; omega), f3, rfl⟩

theorem evalsH_refines {V : Type} {var : V → Ref → XR → Ref × Ref → Op Ref}
    {varL : V → List XR → XR → List (XR × XR) → Except PyErr (List XR)} (hvar : VarOk var varL) (bc : XR) (vb : Ref × Ref) (H0 : Heap)
    (oL : GarchObj V) (trace : List (XR × V)) (o : HGarch V) (h : Ready o vb H0)
    (hL : (view H0 o).returns = oL.returns ∧ o.zeroMean = oL.zeroMean)
    (htot : ∀ p, ∃ q, modelPath varL oL bc (List.zip (H0.read vb.1) (H0.read vb.2)) p = .ok q) (H : Heap) (hk : Keeps H0.next H0 H)
    (hs : o.sigma2.buf < H.next) :
    Refines H0.next (evalsH var bc vb o trace) H
      (.ok (match trace.getLast? with
        | some p => match modelPath varL oL bc (List.zip (H0.read vb.1) (H0.read vb.2)) p with
          | .ok (_, s2) => s2
          | .error _ => H.read o.sigma2
        | none => H.read o.sigma2))
      (fun o' s2 H' => o' = { o with sigma2 := o'.sigma2 } ∧ H'.read o'.sigma2 = s2 ∧ o'.sigma2.buf < H'.next ∧
        (o'.sigma2 = o.sigma2 ∨ H0.next ≤ o'.sigma2.buf)) := by
  induction trace generalizing o H with
  | nil => exact Refines.ret ⟨rfl, rfl, hs, .inl rfl⟩
  | cons p t ih =>
    rw [evalsH]
    simp only [bind_def]
    obtain ⟨q, hq⟩ := htot p
    have hm : modelPath varL (view H0 o) bc (List.zip (H0.read vb.1) (H0.read vb.2)) p
        = modelPath varL oL bc (List.zip (H0.read vb.1) (H0.read vb.2)) p := by
      unfold modelPath
      rw [hL.1, show (view H0 o).zeroMean = oL.zeroMean from hL.2]
    have ho := objectiveH_refines hvar o bc vb p H0 H h hk
    rw [hm, hq] at ho
    have hb : ∀ e : List XR, (Except.ok e : Except PyErr (List XR)) = (Except.ok q : Except PyErr _).bind fun _ => .ok e := fun _ => rfl
    rw [hb]
    refine Refines.bind ho (le_refl _) ?_
    rintro ⟨s, v⟩ q' H1 k1 ⟨g1, g2, g3, g4⟩ e
    injection e with e
    subst e
    have := ih { o with sigma2 := s } ⟨h.ret, h.lo, h.hi, h.lol, h.hil⟩ hL H1 (hk.trans k1 (le_refl _)) g3
    cases t with
    | nil =>
      simp only [List.getLast?_singleton, hq]
      rw [evalsH]
      exact Refines.ret ⟨rfl, g1, g3, .inr g2⟩
    | cons p' t' =>
      obtain ⟨w, hw⟩ : ∃ w, (p' :: t').getLast? = some w := ⟨_, List.getLast?_eq_getLast_of_ne_nil (by simp)⟩
      have hw' : (p :: p' :: t').getLast? = some w := by rw [List.getLast?_cons_cons]; exact hw
      obtain ⟨q2, hq2⟩ := htot w
      simp only [hw, hq2] at this
      simp only [hw', hq2]
      refine this.post ?_
      rintro o' s2 H' _ ⟨e1, e2, e3, e4⟩
      refine ⟨by rw [e1], e2, e3, ?_⟩
      rcases e4 with e4 | e4
      · right; rw [e4]; exact g2
      · exact .inr e4

/-- the references of the object point to allocated buffers -/
structure Valid {V : Type} (o : HGarch V) (H : Heap) : Prop where
  ret : o.returns.buf < H.next
  res : o.resids.buf < H.next
  sig : o.sigma2.buf < H.next
  bnd : ∀ b, o.bounds = some b → b.1.buf < H.next ∧ b.2.buf < H.next

/-- what a completed estimation leaves, compared with the list model -/
structure Left {V : Type} (n : ℕ) (o o' : HGarch V) (oL : GarchObj V) (H' : Heap) : Prop where
  view : view H' o' = oL
  valid : Valid o' H'
  returns : o'.returns = o.returns
  zeroMean : o'.zeroMean = o.zeroMean
  resids : o'.resids = o.resids ∨ n ≤ o'.resids.buf
  sigma2 : o'.sigma2 = o.sigma2 ∨ n ≤ o'.sigma2.buf
  apart : o.resids.buf ≠ o.sigma2.buf → o'.resids.buf ≠ o'.sigma2.buf

theorem fitCoreH_refines {V : Type} (cpp : Bool) {var : V → Ref → XR → Ref × Ref → Op Ref}
    {varL : V → List XR → XR → List (XR × XR) → Except PyErr (List XR)} (hvar : VarOk var varL)
    {start : Ref → Ref → XR → Ref × Ref → Op (Option V)}
    {startL : List XR → List XR → XR → List (XR × XR) → Except PyErr (Option V)} (hstart : StartOk start startL)
    (htot : ∀ p resids bc vb, resids ≠ [] → resids.length ≤ vb.length → ∃ s2, varL p resids bc vb = .ok s2)
    (feas : Bool → Feas (XR × V)) (opt : Optimizer (XR × V)) (o : HGarch V) (H : Heap) (h : Valid o H) :
    Refines H.next (fitCoreH cpp var start feas opt o) H (fitCore cpp varL startL feas opt (HeapGarch.view H o)) (Left H.next o) := by
  unfold fitCoreH fitCore
  simp only [bind_def]
  refine Refines.contents ?_
  have hb : ∀ (f : List (XR × XR) → Except PyErr (GarchObj V)), (varianceBounds cpp (prepResids (view H o)) >>= f)
      = (Except.ok (if o.zeroMean then H.read o.returns else demean (H.read o.returns) (Np.mean (H.read o.returns)))).bind fun l =>
        (varianceBounds cpp l).bind f := fun _ => rfl
  rw [hb]
  refine Refines.bind (residsH_refines o _ H h.ret) (le_refl _) ?_
  rintro r l H1 k1 ⟨g1, g2, g3⟩ el
  refine Refines.contents ?_
  rw [g1]
  have hbb := boundsH_refines cpp r H1 g2
  rw [g1] at hbb
  refine Refines.bind hbb k1.next ?_
  rintro vb vbL H2 k2 ⟨f1, f2, f3, f4, f5, f6, f7⟩ evb
  have k12 : Keeps H.next H H2 := k1.trans k2 k1.next
  have hret2 : o.returns.buf < H2.next := lt_of_lt_of_le h.ret k12.next
  have hst := hstart o.returns r (Model.backcast l) vb H2 hret2 (lt_of_lt_of_le g2 k2.next) f4 f5 f6 f7
  rw [k12.read h.ret, k2.read g2, g1, f1] at hst
  have el' : prepResids (view H o) = l := by injection el
  rw [el']
  refine Refines.bind hst k12.next ?_
  rintro v0 v0' H3 k3 rfl ev
  cases v0 with
  | none => exact Refines.error rfl (.refl _ _)
  | some v0 =>
    simp only
    have k123 : Keeps H.next H H3 := k12.trans k3 k12.next
    set o1 : HGarch V := { o with backcast := Model.backcast l, bounds := some vb } with ho1
    have ready : Ready o1 vb H3 := ⟨lt_of_lt_of_le h.ret k123.next, lt_of_lt_of_le f4 k3.next, lt_of_lt_of_le f5 k3.next, by
      rw [f6, g3], by rw [f7, g3]⟩
    have hzip : List.zip (H3.read vb.1) (H3.read vb.2) = vbL := by rw [k3.read f4, k3.read f5, f1]
    have hview : (view H3 o1).returns = (view H o).returns := by
      show H3.read o.returns = H.read o.returns
      exact k123.read h.ret
    have hmp : ∀ p, modelPath varL (view H3 o1) (Model.backcast l) vbL p = modelPath varL (view H o) (Model.backcast l) vbL p := by
      intro p
      unfold modelPath
      rw [hview]; rfl
    have hl0 : l ≠ [] := by
      intro e
      rw [e] at evb
      unfold varianceBounds ewma at evb
      simp only [bind, Except.bind, if_pos] at evb
      cases evb
    have hll : l.length = o.returns.idx.length := by rw [← g3, ← read_length H1, g1]
    have hvbl : vbL.length = o.returns.idx.length := by
      rw [← f1]; simp [read_length, f6, f7, g3]
    have htot' : ∀ p, ∃ q, modelPath varL (view H o) (Model.backcast l) vbL p = .ok q := by
      intro p
      have hlen : ∀ mu, (if o.zeroMean = true then H.read o.returns else demean (H.read o.returns) mu).length = o.returns.idx.length := by
        intro mu; split_ifs <;> simp [demean, read_length]
      obtain ⟨s2, hs2⟩ := htot p.2 (if (view H o).zeroMean then (view H o).returns else demean (view H o).returns p.1) (Model.backcast l) vbL (by
          intro e
          have := hlen p.1
          have h0 := List.length_pos_iff.mpr hl0
          have e' : (if o.zeroMean = true then H.read o.returns else demean (H.read o.returns) p.1) = [] := e
          rw [e'] at this
          simp at this
          omega) (by
          have := hlen p.1
          have e' : (if (view H o).zeroMean = true then (view H o).returns else demean (view H o).returns p.1).length = o.returns.idx.length := this
          rw [e', hvbl])
      refine ⟨((if (view H o).zeroMean then (view H o).returns else demean (view H o).returns p.1), s2), ?_⟩
      unfold modelPath
      simp only [bind, Except.bind, pure, Except.pure]
      rw [hs2]
    have hobj : (fun p => match (objectiveH var o1 (Model.backcast l) vb p H3).2 with
        | .ok r => r.2
        | .error _ => .nan) = objective varL (view H o) (Model.backcast l) vbL := by
      funext p
      have := objectiveH_refines hvar o1 (Model.backcast l) vb p H3 H3 ready (.refl _ _)
      rw [hzip, hmp] at this
      unfold objective
      obtain ⟨-, this⟩ := this
      obtain ⟨q, hq⟩ := htot' p
      rw [hq] at this ⊢
      cases hr : (objectiveH var o1 (Model.backcast l) vb p H3).2 with
      | error e => rw [hr] at this; exact this.elim
      | ok a => rw [hr] at this; exact this.2.2.2
    set run := opt (feas o.zeroMean) (objective varL (view H o) (Model.backcast l) vbL)
      (if o.zeroMean then 0 else Np.mean (H.read o.returns), v0) with hrun
    have hev := evalsH_refines hvar (Model.backcast l) vb H3 (view H o) run.trace o1 ready ⟨hview, rfl⟩ (by rw [hzip]; exact htot') H3
      (.refl _ _) (lt_of_lt_of_le h.sig k123.next)
    rw [hzip, show H3.read o1.sigma2 = (view H o).sigma2 from k123.read h.sig] at hev
    suffices key : ∀ run0 : OptRun (XR × V), run0 = run → Refines H.next (andThen (evalsH var (Model.backcast l) vb o1 run0.trace) fun o' =>
        if run0.success = true then andThen (Op.contents o.returns) fun x =>
          andThen (alloc (demean x (if o.zeroMean then 0 else run0.x.1))) fun resids =>
          Op.ret { o' with success := true, params := some (if o.zeroMean then 0 else run0.x.1, run0.x.2, -run0.f), resids := resids }
        else Op.ret o') H3
        ((Except.ok (match run.trace.getLast? with
            | some p => match modelPath varL (view H o) (Model.backcast l) vbL p with
              | .ok (_, s2) => s2
              | .error _ => (view H o).sigma2
            | none => (view H o).sigma2)).bind fun s2 => if run.success = true then
          .ok (GarchObj.mk (H.read o.returns) o.zeroMean true (some (if o.zeroMean then 0 else run.x.1, run.x.2, -run.f))
            (demean (H.read o.returns) (if o.zeroMean then 0 else run.x.1)) s2 (Model.backcast l) (some vbL))
          else .ok { view H o with backcast := Model.backcast l, bounds := some vbL, sigma2 := s2 }) (Left H.next o) by
      exact key _ (by rw [hrun, ← hobj]; rfl)
    rintro run0 rfl
    refine Refines.bind hev k123.next ?_
    rintro o' s2 H4 k4 ⟨e1, e2, e3, e4⟩ _
    have k1234 : Keeps H.next H H4 := k123.trans k4 k123.next
    have hvb1 : vb.1.buf < H3.next := lt_of_lt_of_le f4 k3.next
    have hvb2 : vb.2.buf < H3.next := lt_of_lt_of_le f5 k3.next
    have hz4 : List.zip (H4.read vb.1) (H4.read vb.2) = vbL := by rw [k4.read hvb1, k4.read hvb2, hzip]
    have hs4 : o'.sigma2 = o.sigma2 ∨ H.next ≤ o'.sigma2.buf := by
      rcases e4 with e4 | e4
      · exact .inl e4
      · exact .inr (k123.next.trans e4)
    generalize hsig : o'.sigma2 = sg at *
    subst e1
    by_cases hs : run.success = true
    · rw [if_pos hs, if_pos hs]
      refine Refines.contents ?_
      rw [show H4.read o.returns = H.read o.returns from k1234.read h.ret]
      obtain ⟨H5, a1, a2, a3, a4⟩ := alloc_eq (demean (H.read o.returns) (if o.zeroMean then 0 else run.x.1)) H4
      refine Refines.ok (H' := H5) (by unfold andThen; rw [a1]; rfl) (a2.mono k1234.next) ?_
      have k5 : Keeps H.next H H5 := k1234.trans a2 k1234.next
      refine ⟨?_, ⟨lt_of_lt_of_le h.ret k5.next, (by show H4.next < H5.next; omega), lt_of_lt_of_le e3 a2.next, ?_⟩, rfl, rfl,
        .inr k1234.next, hs4, fun _ => (by show H4.next ≠ sg.buf; omega)⟩
      · unfold HeapGarch.view
        simp only [ho1, Option.map_some]
        rw [k5.read h.ret, a4, a2.read e3, e2, a2.read (lt_of_lt_of_le hvb1 k4.next), a2.read (lt_of_lt_of_le hvb2 k4.next), hz4]
      · intro b hb
        injection hb with hb
        subst hb
        exact ⟨lt_of_lt_of_le (lt_of_lt_of_le hvb1 k4.next) a2.next, lt_of_lt_of_le (lt_of_lt_of_le hvb2 k4.next) a2.next⟩
    · rw [if_neg hs, if_neg hs]
      refine Refines.ret ⟨?_, ⟨lt_of_lt_of_le h.ret k1234.next, lt_of_lt_of_le h.res k1234.next, e3, ?_⟩, rfl, rfl, .inl rfl, hs4, fun hap => (by
          show o.resids.buf ≠ sg.buf
          rcases hs4 with e | e
          · rw [e]; exact hap
          · have := h.res; omega)⟩
      · unfold HeapGarch.view
        simp only [ho1, Option.map_some, hz4, e2]
        rw [k1234.read h.ret, k1234.read h.res]
      · intro b hb
        injection hb with hb
        subst hb
        exact ⟨lt_of_lt_of_le hvb1 k4.next, lt_of_lt_of_le hvb2 k4.next⟩

end HeapGarch
end
end Frds
