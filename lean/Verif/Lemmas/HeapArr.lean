import Verif.Model.HeapArr

/-! Reasoning about `Op`: refinement of list computations, with a frame. -/
namespace Frds
noncomputable section
open Frds Frds.Model Frds.Model.Op Classical
set_option linter.unusedSimpArgs false

/-- `H'` has at least the buffers of `H`, and the first `n` are unchanged -/
structure Keeps (n : ℕ) (H H' : Heap) : Prop where
  next : H.next ≤ H'.next
  cells : ∀ b < n, H'.cells b = H.cells b

theorem Keeps.refl (n : ℕ) (H : Heap) : Keeps n H H := ⟨le_refl _, fun _ _ => rfl⟩

theorem Keeps.trans {n n' : ℕ} {H H' H'' : Heap} (h : Keeps n H H') (h' : Keeps n' H' H'') (hn : n ≤ n') : Keeps n H H'' :=
  ⟨h.next.trans h'.next, fun b hb => (h'.cells b (lt_of_lt_of_le hb hn)).trans (h.cells b hb)⟩

theorem Keeps.mono {n n' : ℕ} {H H' : Heap} (h : Keeps n' H H') (hn : n ≤ n') : Keeps n H H' :=
  ⟨h.next, fun b hb => h.cells b (lt_of_lt_of_le hb hn)⟩

theorem Keeps.read {n : ℕ} {H H' : Heap} (h : Keeps n H H') {r : Ref} (hr : r.buf < n) : H'.read r = H.read r := by
  unfold Heap.read; rw [h.cells _ hr]

/-- `m`, run in `H`, does what the list computation `e` does, up to the relation `R` between results, and keeps the first `n` buffers -/
def Refines {α β : Type} (n : ℕ) (m : Op α) (H : Heap) (e : Except PyErr β) (R : α → β → Heap → Prop) : Prop :=
  Keeps n H (m H).1 ∧
  match (m H).2, e with
  | .ok a, .ok b => R a b (m H).1
  | .error x, .error y => x = y
  | _, _ => False

namespace Refines
variable {α β γ δ : Type} {n : ℕ} {H : Heap}

theorem ok {m : Op α} {H' : Heap} {a : α} {b : β} {R : α → β → Heap → Prop} (h : m H = (H', .ok a)) (hk : Keeps n H H') (hR : R a b H') :
    Refines n m H (.ok b) R := by
  unfold Refines; rw [h]; exact ⟨hk, hR⟩

theorem ret {a : α} {b : β} {R : α → β → Heap → Prop} (hR : R a b H) : Refines n (Op.ret a) H (.ok b) R := ok rfl (.refl _ _) hR

theorem error {m : Op α} {H' : Heap} {x : PyErr} {R : α → β → Heap → Prop} (h : m H = (H', .error x)) (hk : Keeps n H H') :
    Refines n m H (.error x) R := by
  unfold Refines; rw [h]; exact ⟨hk, rfl⟩

theorem bind {m : Op α} {k : α → Op γ} {e : Except PyErr β} {f : β → Except PyErr δ} {R : α → β → Heap → Prop} {S : γ → δ → Heap → Prop}
    {n' : ℕ} (h : Refines n' m H e R) (hn : n ≤ n')
    (hk : ∀ a b H', Keeps n' H H' → R a b H' → e = .ok b → Refines n (k a) H' (f b) S) :
    Refines n (andThen m k) H (e.bind f) S := by
  unfold Refines andThen at *
  rcases hm : m H with ⟨H', r⟩
  rw [hm] at h
  obtain ⟨h1, h2⟩ := h
  cases r with
  | error x =>
    cases e with
    | ok b => exact h2.elim
    | error y => exact ⟨h1.mono hn, h2⟩
  | ok a =>
    cases e with
    | error y => exact h2.elim
    | ok b =>
      have := hk a b H' h1 h2 rfl
      exact ⟨(h1.mono hn).trans this.1 (le_refl _), this.2⟩

theorem post {m : Op α} {e : Except PyErr β} {R S : α → β → Heap → Prop} (h : Refines n m H e R)
    (hS : ∀ a b H', Keeps n H H' → R a b H' → S a b H') : Refines n m H e S := by
  unfold Refines at *
  rcases hm : m H with ⟨H', r⟩
  rw [hm] at h
  obtain ⟨h1, h2⟩ := h
  refine ⟨h1, ?_⟩
  cases r <;> cases e <;> first | exact h2 | exact hS _ _ _ h1 h2

theorem mono {m : Op α} {e : Except PyErr β} {R : α → β → Heap → Prop} {n' : ℕ} (h : Refines n' m H e R) (hn : n ≤ n') :
    Refines n m H e R := ⟨h.1.mono hn, h.2⟩

theorem contents {r : Ref} {k : List XR → Op α} {e : Except PyErr β} {R : α → β → Heap → Prop}
    (h : Refines n (k (H.read r)) H e R) : Refines n (andThen (Op.contents r) k) H e R := h

theorem lift {x : Except PyErr β} {k : β → Op α} {f : β → Except PyErr γ} {R : α → γ → Heap → Prop}
    (h : ∀ b, x = .ok b → Refines n (k b) H (f b) R) : Refines n (andThen (Op.lift x) k) H (x.bind f) R := by
  cases x with
  | error e => exact error rfl (.refl _ _)
  | ok b => exact h b rfl

/-- a new array -/
def Fresh (n : ℕ) (a : Ref) (l : List XR) (H' : Heap) : Prop :=
  H'.read a = l ∧ n ≤ a.buf ∧ a.buf < H'.next ∧ a.idx.length = l.length

theorem alloc (l : List XR) : Refines H.next (Op.alloc l) H (.ok l) (Fresh H.next) := by
  refine ok rfl ⟨Nat.le_succ _, fun b hb => ?_⟩ ⟨?_, le_refl _, Nat.lt_succ_self _, by simp⟩
  · funext i
    show (if b = H.next ∧ i < l.length then l.getD i .nan else H.cells b i) = H.cells b i
    rw [if_neg (by omega)]
  · unfold Heap.read
    apply List.ext_getElem
    · simp
    · intro i h1 h2
      simp only [List.getElem_map, List.getElem_range]
      rw [if_pos ⟨trivial, h2⟩]
      simp [List.getD, h2]

end Refines

/-! ### loops that fill an array -/

/-- only the buffer `b` differs -/
def Only (b : ℕ) (H H' : Heap) : Prop := H'.next = H.next ∧ ∀ b', b' ≠ b → H'.cells b' = H.cells b'

theorem Only.refl (b : ℕ) (H : Heap) : Only b H H := ⟨rfl, fun _ _ => rfl⟩
theorem Only.trans {b : ℕ} {H H' H'' : Heap} (h : Only b H H') (h' : Only b H' H'') : Only b H H'' :=
  ⟨h'.1.trans h.1, fun c hc => (h'.2 c hc).trans (h.2 c hc)⟩
theorem Only.keeps {b n : ℕ} {H H' : Heap} (h : Only b H H') (hn : n ≤ b) : Keeps n H H' :=
  ⟨h.1.ge, fun c hc => h.2 c (by omega)⟩
theorem Only.write (H : Heap) (b i : ℕ) (v : XR) : Only b H (H.write b i v) := by
  refine ⟨rfl, fun c hc => ?_⟩
  funext j
  show (if c = b ∧ j = i then v else H.cells c j) = _
  rw [if_neg (by tauto)]

theorem write_same (H : Heap) (b i : ℕ) (v : XR) : (H.write b i v).cells b i = v := by simp [Heap.write]
theorem write_other (H : Heap) (b i j : ℕ) (v : XR) (h : j ≠ i) : (H.write b i v).cells b j = H.cells b j := by simp [Heap.write, h]

/-- the array `s` occupies its buffer densely -/
def Dense (s : Ref) (T : ℕ) : Prop := s.idx = List.range T

theorem getItem_dense {s : Ref} {T t : ℕ} (hs : Dense s T) (ht : t < T) (H : Heap) :
    getItem s t H = (H, .ok (H.cells s.buf t)) := by
  unfold getItem; rw [hs, List.getElem?_range ht]

theorem setItem_dense {s : Ref} {T t : ℕ} (hs : Dense s T) (ht : t < T) (v : XR) (H : Heap) :
    setItem s t v H = (H.write s.buf t v, .ok ()) := by
  unfold setItem; rw [hs, List.getElem?_range ht]

theorem getItem_read {r : Ref} {t : ℕ} {v : XR} {H : Heap} (h : (H.read r)[t]? = some v) : getItem r t H = (H, .ok v) := by
  unfold getItem
  unfold Heap.read at h
  rw [List.getElem?_map] at h
  cases hi : r.idx[t]? with
  | none => rw [hi] at h; cases h
  | some i => rw [hi] at h; injection h with h; rw [← h]

theorem read_dense {s : Ref} {T : ℕ} (hs : Dense s T) (H : Heap) : H.read s = (List.range T).map (H.cells s.buf) := by
  unfold Heap.read; rw [hs]

theorem each_fill (b : ℕ) (body : ℕ → Op Unit) (path : ℕ → XR) (H : Heap) (k a : ℕ) (ha : ∀ i < a, H.cells b i = path i)
    (hbody : ∀ t H', a ≤ t → t < a + k → Only b H H' → (∀ i < t, H'.cells b i = path i) →
      ∃ H'', body t H' = (H'', .ok ()) ∧ Only b H' H'' ∧ H''.cells b t = path t ∧ ∀ i < t, H''.cells b i = H'.cells b i) :
    ∃ H', each body (List.range' a k) H = (H', .ok ()) ∧ Only b H H' ∧ ∀ i < a + k, H'.cells b i = path i := by
  induction k generalizing a H with
  | zero => exact ⟨H, rfl, .refl _ _, by simpa using ha⟩
  | succ k ih =>
    obtain ⟨H1, h1, h2, h3, h4⟩ := hbody a H (le_refl _) (by omega) (.refl _ _) ha
    obtain ⟨H2, g1, g2, g3⟩ := ih H1 (a + 1) (by
        intro i hi
        rcases Nat.lt_succ_iff_lt_or_eq.mp hi with hi | rfl
        · rw [h4 i hi, ha i hi]
        · exact h3) (fun t H' ht1 ht2 ho hi => hbody t H' (by omega) (by omega) (h2.trans ho) hi)
    refine ⟨H2, ?_, h2.trans g2, fun i hi => g3 i (by omega)⟩
    rw [List.range'_succ, each]
    unfold andThen
    rw [h1]
    exact g1

/-- an in-place operation on a new array -/
theorem inPlace_dense {s : Ref} {T : ℕ} (hs : Dense s T) (f : XR → XR) (H : Heap) :
    ∃ H', inPlace s f H = (H', .ok ()) ∧ Only s.buf H H' ∧ H'.read s = (H.read s).map f := by
  have key : ∀ k a, a + k = T → ∀ H1, Only s.buf H H1 → (∀ i < a, H1.cells s.buf i = f (H.cells s.buf i)) →
      (∀ i, a ≤ i → H1.cells s.buf i = H.cells s.buf i) →
      ∃ H', each (fun t => andThen (getItem s t) fun v => setItem s t (f v)) (List.range' a k) H1 = (H', .ok ()) ∧ Only s.buf H H' ∧
        ∀ i < T, H'.cells s.buf i = f (H.cells s.buf i) := by
    intro k
    induction k with
    | zero => intro a ha H1 ho h1 h2; exact ⟨H1, rfl, ho, by intro i hi; exact h1 i (by omega)⟩
    | succ k ih =>
      intro a ha H1 ho h1 h2
      obtain ⟨H2, g1, g2, g3⟩ := ih (a + 1) (by omega) (H1.write s.buf a (f (H1.cells s.buf a))) (ho.trans (.write _ _ _ _)) (by
          intro i hi
          rcases Nat.lt_succ_iff_lt_or_eq.mp hi with hi | rfl
          · rw [write_other _ _ _ _ _ (by omega), h1 i hi]
          · rw [write_same, h2 i (le_refl _)]) (by
          intro i hi
          rw [write_other _ _ _ _ _ (by omega), h2 i (by omega)])
      refine ⟨H2, ?_, g2, g3⟩
      rw [List.range'_succ, each]
      unfold andThen
      rw [getItem_dense hs (by omega)]
      simp only
      rw [setItem_dense hs (by omega)]
      exact g1
  obtain ⟨H', g1, g2, g3⟩ := key T 0 (by omega) H (.refl _ _) (by simp) (fun i _ => rfl)
  refine ⟨H', ?_, g2, ?_⟩
  · unfold inPlace
    rw [hs, List.length_range, List.range_eq_range']; exact g1
  · rw [read_dense hs, read_dense hs, List.map_map]
    exact List.map_congr_left fun i hi => g3 i (List.mem_range.mp hi)

end
end Frds
