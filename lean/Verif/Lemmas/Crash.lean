import Verif.Model.Crash

/-! Lemmas about runs: composition, crash states, a Hoare logic with crash conditions. -/
namespace Frds.Model.Crash
noncomputable section
open Frds Frds.Model Classical
namespace Run
variable {S T A B P : Type}

theorem bind_eq (m : Run S A) (k : A → Run S B) : (m >>= k) = andThen m k := rfl
theorem pure_eq (a : A) : (pure a : Run S A) = ret a := rfl

theorem final_nil (s : S) : final s [] = s := rfl

theorem final_cons (s x : S) (l : List S) : final s (x :: l) = final x l := by
  unfold final
  rw [List.getLast_cons (by simp)]

theorem final_append (s : S) (l l' : List S) : final s (l ++ l') = final (final s l) l' := by
  induction l generalizing s with
  | nil => rfl
  | cons x l ih => rw [List.cons_append, final_cons, final_cons, ih]

theorem final_mem (s : S) (l : List S) : final s l ∈ s :: l := List.getLast_mem _

theorem final_map (f : T → S) (s : S) (t : T) (l : List T) (h : f t = s) : final s (l.map f) = f (final t l) := by
  subst h
  induction l generalizing t with
  | nil => rfl
  | cons x l ih => rw [List.map_cons, final_cons, final_cons, ih]

/-! #### complete calls -/

theorem exec_andThen (m : Run S A) (k : A → Run S B) (s : S) :
    exec (andThen m k) s = (exec m s).bind fun q => exec (k q.2) q.1 := by
  unfold exec andThen
  cases h : (m s).2 with
  | error e => rfl
  | ok a =>
    simp only [Except.bind]
    rw [final_append]

theorem exec_ret (a : A) (s : S) : exec (ret a) s = .ok (s, a) := rfl
theorem exec_get (s : S) : exec get s = .ok (s, s) := rfl
theorem exec_write (f : S → S) (s : S) : exec (write f) s = .ok (f s, ()) := rfl
theorem exec_lift (x : Except PyErr A) (s : S) : exec (lift x) s = x.map fun a => (s, a) := by cases x <;> rfl

theorem exec_on {proj : S → T} {put : S → T → S} (hput : ∀ s, put s (proj s) = s) (m : Run T A) (s : S) :
    exec (on proj put m) s = (exec m (proj s)).map fun q => (put s q.1, q.2) := by
  unfold exec on
  cases h : (m (proj s)).2 with
  | error e => rfl
  | ok a =>
    simp only [Except.map]
    rw [final_map (put s) s (proj s) _ (hput s)]

theorem after_exec (m : Run S A) (s : S) : after m s = (exec m s).map Prod.fst := by
  unfold after exec
  cases (m s).2 <;> rfl

theorem exec_unit (m : Run S Unit) (s : S) : exec m s = (after m s).map fun q => (q, ()) := by
  unfold after exec
  cases (m s).2 <;> rfl

theorem exec_each (f : P → Run S Unit) (l : List P) (s : S) :
    exec (each f l) s = (l.foldlM (fun (s : S) p => after (f p) s) s).map fun q => (q, ()) := by
  induction l generalizing s with
  | nil => rfl
  | cons p l ih =>
    rw [each, exec_andThen, List.foldlM_cons, exec_unit]
    simp only [bind, Except.bind]
    cases h : after (f p) s with
    | error e => rfl
    | ok q => simp only [Except.map]; rw [ih]; rfl

theorem exec_fold (f : A → P → Run S A) (l : List P) (a : A) (s : S) :
    exec (fold f a l) s = l.foldlM (fun (q : S × A) p => exec (f q.2 p) q.1) (s, a) := by
  induction l generalizing s a with
  | nil => rfl
  | cons p l ih =>
    rw [fold, exec_andThen, List.foldlM_cons]
    simp only [bind, Except.bind]
    cases h : exec (f a p) s with
    | error e => rfl
    | ok q => simp only; rw [ih]

/-! #### crash states -/

theorem mem_andThen {m : Run S A} {k : A → Run S B} {s x : S} : x ∈ crashStates (andThen m k) s ↔
    x ∈ crashStates m s ∨ ∃ a t, exec m s = .ok (t, a) ∧ x ∈ crashStates (k a) t := by
  cases hm : (m s).2 with
  | error e =>
    have e1 : (Run.andThen m k) s = ((m s).1, .error e) := by unfold Run.andThen; rw [hm]
    have e2 : exec m s = .error e := by unfold exec; rw [hm]
    simp [crashStates, e1, e2]
  | ok a =>
    have e1 : (Run.andThen m k) s = ((m s).1 ++ (k a (final s (m s).1)).1, (k a (final s (m s).1)).2) := by
      unfold Run.andThen; rw [hm]
    have e2 : exec m s = .ok (final s (m s).1, a) := by unfold exec; rw [hm]
    rw [e2]
    constructor
    · intro hx
      simp only [crashStates, e1, List.mem_cons, List.mem_append] at hx
      rcases hx with rfl | hx | hx
      · exact .inl (by simp [crashStates])
      · exact .inl (by simp [crashStates, hx])
      · exact .inr ⟨_, _, rfl, by simp [crashStates, hx]⟩
    · rintro (hx | ⟨a', t, h, hx⟩)
      · simp only [crashStates, e1, List.mem_cons, List.mem_append] at hx ⊢
        tauto
      · injection h with h
        injection h with h1 h2
        subst h1 h2
        simp only [crashStates, e1, List.mem_cons, List.mem_append] at hx ⊢
        rcases hx with rfl | hx
        · have := final_mem s (m s).1
          simp only [List.mem_cons] at this
          tauto
        · tauto

theorem crash_ret (a : A) (s : S) : crashStates (ret a) s = [s] := rfl
theorem crash_get (s : S) : crashStates get s = [s] := rfl
theorem crash_lift (x : Except PyErr A) (s : S) : crashStates (lift x) s = [s] := rfl
theorem crash_write (f : S → S) (s : S) : crashStates (write f) s = [s, f s] := rfl

theorem mem_on {proj : S → T} {put : S → T → S} (hput : ∀ s, put s (proj s) = s) {m : Run T A} {s x : S} :
    x ∈ crashStates (on proj put m) s ↔ ∃ t ∈ crashStates m (proj s), x = put s t := by
  simp only [crashStates, on, List.mem_cons, List.mem_map]
  constructor
  · rintro (rfl | ⟨t, ht, rfl⟩)
    · exact ⟨_, .inl rfl, (hput x).symm⟩
    · exact ⟨t, .inr ht, rfl⟩
  · rintro ⟨t, rfl | ht, rfl⟩
    · exact .inl (hput s)
    · exact .inr ⟨t, ht, rfl⟩

theorem self_mem (m : Run S A) (s : S) : s ∈ crashStates m s := by simp [crashStates]

/-- the final state of a complete call is a crash state -/
theorem exec_mem {m : Run S A} {s t : S} {a : A} (h : exec m s = .ok (t, a)) : t ∈ crashStates m s := by
  unfold exec at h
  cases hm : (m s).2 with
  | error e => rw [hm] at h; cases h
  | ok b =>
    rw [hm] at h
    injection h with h
    injection h with h1 h2
    subst h1
    exact final_mem _ _

/-! #### crash Hoare logic -/

/-- From a state satisfying `P`, every state in which the call may be interrupted satisfies `C`, and if the call returns, the
final state and the result satisfy `Q`. -/
def Triple (P : S → Prop) (m : Run S A) (Q : A → S → Prop) (C : S → Prop) : Prop :=
  ∀ s, P s → (∀ x ∈ crashStates m s, C x) ∧ ∀ a, (m s).2 = .ok a → Q a (final s (m s).1)

theorem Triple.andThen {P : S → Prop} {m : Run S A} {Q : A → S → Prop} {C : S → Prop} {k : A → Run S B} {R : B → S → Prop}
    (h : Triple P m Q C) (hk : ∀ a, Triple (Q a) (k a) R C) : Triple P (andThen m k) R C := by
  intro s hs
  obtain ⟨h1, h2⟩ := h s hs
  cases hm : (m s).2 with
  | error e =>
    have e1 : (Run.andThen m k) s = ((m s).1, .error e) := by unfold Run.andThen; rw [hm]
    refine ⟨fun x hx => h1 x ?_, fun a ha => ?_⟩
    · simpa [crashStates, e1] using hx
    · rw [e1] at ha; cases ha
  | ok a =>
    obtain ⟨k1, k2⟩ := hk a _ (h2 a hm)
    have e1 : (Run.andThen m k) s = ((m s).1 ++ (k a (final s (m s).1)).1, (k a (final s (m s).1)).2) := by
      unfold Run.andThen; rw [hm]
    constructor
    · intro x hx
      simp only [crashStates, e1, List.mem_cons, List.mem_append] at hx
      rcases hx with rfl | hx | hx
      · exact h1 _ (by simp [crashStates])
      · exact h1 _ (by simp [crashStates, hx])
      · exact k1 _ (by simp [crashStates, hx])
    · intro b hb
      rw [e1] at hb ⊢
      simp only at hb ⊢
      rw [final_append]
      exact k2 b hb

theorem Triple.bind {P : S → Prop} {m : Run S A} {Q : A → S → Prop} {C : S → Prop} {k : A → Run S B} {R : B → S → Prop}
    (h : Triple P m Q C) (hk : ∀ a, Triple (Q a) (k a) R C) : Triple P (m >>= k) R C := h.andThen hk

theorem Triple.ret {P : S → Prop} {C : S → Prop} (hC : ∀ s, P s → C s) (a : A) :
    Triple P (ret a) (fun b s => b = a ∧ P s) C := by
  intro s hs
  refine ⟨fun x hx => ?_, fun b hb => ?_⟩
  · simp only [crashStates, Run.ret, List.mem_singleton] at hx; subst hx; exact hC _ hs
  · simp only [Run.ret, Except.ok.injEq] at hb; exact ⟨hb.symm, hs⟩

theorem Triple.get {P : S → Prop} {C : S → Prop} (hC : ∀ s, P s → C s) :
    Triple P get (fun b s => b = s ∧ P s) C := by
  intro s hs
  refine ⟨fun x hx => ?_, fun b hb => ?_⟩
  · simp only [crashStates, Run.get, List.mem_singleton] at hx; subst hx; exact hC _ hs
  · simp only [Run.get, Except.ok.injEq] at hb; exact ⟨hb.symm, hs⟩

theorem Triple.lift {P : S → Prop} {C : S → Prop} (hC : ∀ s, P s → C s) (x : Except PyErr A) :
    Triple P (lift x) (fun b s => x = .ok b ∧ P s) C := by
  intro s hs
  refine ⟨fun x hx => ?_, fun b hb => ⟨hb, hs⟩⟩
  simp only [crashStates, Run.lift, List.mem_singleton] at hx; subst hx; exact hC _ hs

theorem Triple.write {P : S → Prop} {f : S → S} {C : S → Prop} (hC : ∀ s, P s → C s) (hf : ∀ s, P s → C (f s)) :
    Triple P (write f) (fun _ s' => ∃ s, P s ∧ s' = f s) C := by
  intro s hs
  refine ⟨fun x hx => ?_, fun b hb => ⟨s, hs, rfl⟩⟩
  simp only [crashStates, Run.write, List.mem_cons, List.not_mem_nil, or_false] at hx
  rcases hx with rfl | rfl
  · exact hC _ hs
  · exact hf _ hs

theorem Triple.each {C I : S → Prop} {f : P → Run S Unit} (l : List P) (hI : ∀ s, I s → C s)
    (h : ∀ p ∈ l, Triple I (f p) (fun _ => I) C) : Triple I (each f l) (fun _ => I) C := by
  induction l with
  | nil =>
    intro s hs
    obtain ⟨h1, h2⟩ := Triple.ret (A := Unit) hI () s hs
    exact ⟨h1, fun a ha => (h2 a ha).2⟩
  | cons p l ih => exact (h p (by simp)).andThen fun _ => ih fun q hq => h q (by simp [hq])

theorem Triple.fold {C I : S → Prop} {f : A → P → Run S A} (l : List P) (hI : ∀ s, I s → C s)
    (h : ∀ a, ∀ p ∈ l, Triple I (f a p) (fun _ => I) C) (a : A) : Triple I (fold f a l) (fun _ => I) C := by
  induction l generalizing a with
  | nil =>
    intro s hs
    obtain ⟨h1, h2⟩ := Triple.ret (A := A) hI a s hs
    exact ⟨h1, fun a ha => (h2 a ha).2⟩
  | cons p l ih =>
    exact (h a p (by simp)).andThen fun b => ih (fun a q hq => h a q (by simp [hq])) b

theorem Triple.on {Pr : T → Prop} {m : Run T A} {Q : A → T → Prop} {C : T → Prop} (h : Triple Pr m Q C)
    {proj : S → T} {put : S → T → S} (hput : ∀ s, put s (proj s) = s) (s0 : S) :
    Triple (fun s => s = s0 ∧ Pr (proj s)) (on proj put m) (fun a s => ∃ t, Q a t ∧ s = put s0 t)
      (fun s => ∃ t, C t ∧ s = put s0 t) := by
  rintro s ⟨rfl, hs⟩
  obtain ⟨h1, h2⟩ := h _ hs
  constructor
  · intro x hx
    simp only [crashStates, Run.on, List.mem_cons, List.mem_map] at hx
    rcases hx with rfl | ⟨t, ht, rfl⟩
    · exact ⟨proj x, h1 _ (by simp [crashStates]), (hput x).symm⟩
    · exact ⟨t, h1 _ (by simp [crashStates, ht]), rfl⟩
  · intro a ha
    refine ⟨_, h2 a ha, ?_⟩
    exact final_map (put s) s (proj s) _ (hput s)

theorem Triple.weaken {P P' : S → Prop} {m : Run S A} {Q Q' : A → S → Prop} {C C' : S → Prop} (h : Triple P m Q C)
    (hP : ∀ s, P' s → P s) (hQ : ∀ a s, Q a s → Q' a s) (hC : ∀ s, C s → C' s) : Triple P' m Q' C' := fun s hs =>
  ⟨fun x hx => hC _ ((h s (hP s hs)).1 x hx), fun a ha => hQ _ _ ((h s (hP s hs)).2 a ha)⟩

end Run
end
end Frds.Model.Crash
