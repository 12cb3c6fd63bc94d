import Verif.Model.Conc

/-! Lemmas about interleaved calls: running alone, termination, rely-guarantee reasoning. -/
namespace Frds.Model.Conc
noncomputable section
open Frds Frds.Model Classical

namespace Prog
variable {S A B : Type}

theorem bind_eq (m : Prog S A) (k : A → Prog S B) : (m >>= k) = bind' m k := rfl
theorem pure_eq (a : A) : (pure a : Prog S A) = done (.ok a) := rfl

theorem bind_assoc' {C : Type} (m : Prog S A) (k : A → Prog S B) (l : B → Prog S C) :
    bind' (bind' m k) l = bind' m fun a => bind' (k a) l := by
  induction m with
  | done r => cases r <;> rfl
  | read k' ih => simp only [bind', ih]
  | write f k' ih => simp only [bind', ih]

/-! #### alone -/

theorem run_bind (m : Prog S A) (k : A → Prog S B) (s : S) :
    run (bind' m k) s = match (run m s).2 with
      | .ok a => run (k a) (run m s).1
      | .error e => ((run m s).1, .error e) := by
  induction m generalizing s with
  | done r => cases r <;> rfl
  | read k' ih => exact ih s s
  | write f k' ih => exact ih (f s)

theorem run_get (s : S) : run get s = (s, .ok s) := rfl
theorem run_put (f : S → S) (s : S) : run (put f) s = (f s, .ok ()) := rfl
theorem run_lift (x : Except PyErr A) (s : S) : run (lift x) s = (s, x) := rfl
theorem run_done (x : Except PyErr A) (s : S) : run (done x) s = (s, x) := rfl

end Prog
open Prog

namespace Sys
variable {ι S A : Type}

theorem exec_append (c : Sys ι S A) (l l' : List ι) : c.exec (l ++ l') = (c.exec l).exec l' := by
  unfold exec; rw [List.foldl_append]

theorem exec_cons (c : Sys ι S A) (i : ι) (l : List ι) : c.exec (i :: l) = (c.tick i).exec l := rfl
theorem exec_nil (c : Sys ι S A) : c.exec [] = c := rfl

theorem tick_done {c : Sys ι S A} {i : ι} {r : Except PyErr A} (h : c.thread i = .done r) : c.tick i = c := by
  unfold tick
  rw [h]
  simp only [Prog.step]
  rw [← h, Function.update_eq_self]

theorem tick_read {c : Sys ι S A} {i : ι} {k : S → Prog S A} (h : c.thread i = .read k) :
    c.tick i = ⟨c.shared, Function.update c.thread i (k c.shared)⟩ := by
  unfold tick; rw [h]; rfl

theorem tick_write {c : Sys ι S A} {i : ι} {f : S → S} {k : Prog S A} (h : c.thread i = .write f k) :
    c.tick i = ⟨f c.shared, Function.update c.thread i k⟩ := by
  unfold tick; rw [h]; rfl

/-- a thread scheduled alone for long enough completes its call as if there were no other threads -/
theorem exec_alone (c : Sys ι S A) (i : ι) : ∃ n, ∀ m, n ≤ m → c.exec (List.replicate m i) =
    ⟨(run (c.thread i) c.shared).1, Function.update c.thread i (.done (run (c.thread i) c.shared).2)⟩ := by
  generalize hp : c.thread i = p
  induction p generalizing c with
  | done r =>
    refine ⟨0, fun m _ => ?_⟩
    induction m with
    | zero =>
      have : Function.update c.thread i (.done r) = c.thread := by rw [← hp, Function.update_eq_self]
      simp only [List.replicate_zero, exec_nil, run]
      rw [this]
    | succ m ih => rw [List.replicate_succ, exec_cons, tick_done hp, ih (Nat.zero_le _)]
  | read k ih =>
    obtain ⟨n, hn⟩ := ih c.shared ⟨c.shared, Function.update c.thread i (k c.shared)⟩ (by simp)
    refine ⟨n + 1, fun m hm => ?_⟩
    obtain ⟨m, rfl⟩ : ∃ m', m = m' + 1 := ⟨m - 1, by omega⟩
    rw [List.replicate_succ, exec_cons, tick_read hp, hn m (by omega)]
    simp [run]
  | write f k ih =>
    obtain ⟨n, hn⟩ := ih ⟨f c.shared, Function.update c.thread i k⟩ (by simp)
    refine ⟨n + 1, fun m hm => ?_⟩
    obtain ⟨m, rfl⟩ : ∃ m', m = m' + 1 := ⟨m - 1, by omega⟩
    rw [List.replicate_succ, exec_cons, tick_write hp, hn m (by omega)]
    simp [run]

/-- a thread scheduled alone gets through the first part of its call -/
theorem exec_prefix {B : Type} {m : Prog S B} {k : B → Prog S A} {c : Sys ι S A} {i : ι} {s' : S} {b : B}
    (h : c.thread i = bind' m k) (hr : run m c.shared = (s', .ok b)) :
    ∃ n, c.exec (List.replicate n i) = ⟨s', Function.update c.thread i (k b)⟩ := by
  induction m generalizing c with
  | done r =>
    simp only [run, Prod.mk.injEq] at hr
    obtain ⟨rfl, rfl⟩ := hr
    refine ⟨0, ?_⟩
    have : Function.update c.thread i (k b) = c.thread := by
      rw [show k b = c.thread i from h.symm, Function.update_eq_self]
    rw [this]; rfl
  | read k' ih =>
    obtain ⟨n, hn⟩ := ih c.shared (c := ⟨c.shared, Function.update c.thread i (bind' (k' c.shared) k)⟩) (by simp) hr
    refine ⟨n + 1, ?_⟩
    rw [List.replicate_succ, exec_cons, tick_read h, hn]
    simp
  | write f k' ih =>
    obtain ⟨n, hn⟩ := ih (c := ⟨f c.shared, Function.update c.thread i (bind' k' k)⟩) (by simp) hr
    refine ⟨n + 1, ?_⟩
    rw [List.replicate_succ, exec_cons, tick_write h, hn]
    simp

theorem tick_other (c : Sys ι S A) {i j : ι} (h : i ≠ j) : (c.tick j).thread i = c.thread i := by
  unfold tick; simp [Function.update_of_ne h]

/-- the first `n` actions of an infinite schedule -/
def upTo (σ : ℕ → ι) (n : ℕ) : List ι := (List.range n).map σ

theorem upTo_succ (σ : ℕ → ι) (n : ℕ) : upTo σ (n + 1) = upTo σ n ++ [σ n] := by
  unfold upTo; rw [List.range_succ, List.map_append]; rfl

theorem exec_succ (c : Sys ι S A) (σ : ℕ → ι) (n : ℕ) : c.exec (upTo σ (n + 1)) = (c.exec (upTo σ n)).tick (σ n) := by
  rw [upTo_succ, exec_append]; rfl

/-- a thread that is scheduled again and again finishes -/
theorem terminates (c : Sys ι S A) (σ : ℕ → ι) (i : ι) (hi : ∀ n, ∃ m, n ≤ m ∧ σ m = i) :
    ∃ n, ((c.exec (upTo σ n)).result i).isSome := by
  suffices h : ∀ (p : Prog S A) (n : ℕ), (c.exec (upTo σ n)).thread i = p → ∃ n, ((c.exec (upTo σ n)).result i).isSome by
    exact h _ 0 rfl
  intro p
  -- the next time thread `i` acts
  have next : ∀ n, ∃ m, n ≤ m ∧ σ m = i ∧ (c.exec (upTo σ m)).thread i = (c.exec (upTo σ n)).thread i := by
    intro n
    obtain ⟨m, hm⟩ := hi n
    induction hd : m - n using Nat.strong_induction_on generalizing n m with
    | _ d ih =>
      by_cases hs : σ n = i
      · exact ⟨n, le_refl _, hs, rfl⟩
      · have hne : n ≠ m := fun h => hs (h ▸ hm.2)
        obtain ⟨m', h1, h2, h3⟩ := ih (m - (n + 1)) (by omega) (n + 1) m ⟨by omega, hm.2⟩ rfl
        refine ⟨m', by omega, h2, ?_⟩
        rw [h3, exec_succ, tick_other _ (Ne.symm hs)]
  induction p with
  | done r => intro n hn; exact ⟨n, by unfold result; rw [hn]; rfl⟩
  | read k ih =>
    intro n hn
    obtain ⟨m, _, h2, h3⟩ := next n
    rw [hn] at h3
    refine ih (c.exec (upTo σ m)).shared (m + 1) ?_
    rw [exec_succ, h2, tick_read h3]
    simp
  | write f k ih =>
    intro n hn
    obtain ⟨m, _, h2, h3⟩ := next n
    rw [hn] at h3
    refine ih (m + 1) ?_
    rw [exec_succ, h2, tick_write h3]
    simp

/-- from one configuration of the threads to another, by some schedule -/
def Reaches (c c' : Sys ι S A) : Prop := ∃ sched, c.exec sched = c'

theorem Reaches.trans {c c' c'' : Sys ι S A} (h : Reaches c c') (h' : Reaches c' c'') : Reaches c c'' := by
  obtain ⟨n, rfl⟩ := h
  obtain ⟨m, rfl⟩ := h'
  exact ⟨n ++ m, by rw [exec_append]⟩

theorem Reaches.prefix {B : Type} {m : Prog S B} {k : B → Prog S A} {c : Sys ι S A} (i : ι) {s' : S} {b : B}
    (h : c.thread i = bind' m k) (hr : run m c.shared = (s', .ok b)) :
    Reaches c ⟨s', Function.update c.thread i (k b)⟩ := by
  obtain ⟨n, hn⟩ := exec_prefix h hr
  exact ⟨_, hn⟩

theorem Reaches.alone (c : Sys ι S A) (i : ι) {s' : S} {r : Except PyErr A} (hr : run (c.thread i) c.shared = (s', r)) :
    Reaches c ⟨s', Function.update c.thread i (.done r)⟩ := by
  obtain ⟨n, hn⟩ := exec_alone c i
  have := hn n (le_refl _)
  rw [hr] at this
  exact ⟨_, this⟩

theorem result_done {c : Sys ι S A} {i : ι} {r : Except PyErr A} (h : c.thread i = .done r) : c.result i = some r := by
  unfold result; rw [h]

end Sys

/-! #### rely-guarantee -/

variable {ι S A B : Type}

/-- `G s s'`: a step the other threads may make. From state `s` the call makes only such steps, whatever the others do, and
its outcome, in the state at that time and later, satisfies `Q`. -/
def Ok (G : S → S → Prop) (Q : Except PyErr A → S → Prop) : Prog S A → S → Prop
  | .done r, s => ∀ s', G s s' → Q r s'
  | .read k, s => ∀ s', G s s' → Ok G Q (k s') s'
  | .write f k, s => ∀ s', G s s' → G s' (f s') ∧ Ok G Q k (f s')

theorem Ok.mono {G : S → S → Prop} (htr : ∀ a b c, G a b → G b c → G a c) {Q : Except PyErr A → S → Prop} {p : Prog S A}
    {s s' : S} (h : Ok G Q p s) (hs : G s s') : Ok G Q p s' := by
  cases p with
  | done r => exact fun t ht => h t (htr _ _ _ hs ht)
  | read k => exact fun t ht => h t (htr _ _ _ hs ht)
  | write f k => exact fun t ht => h t (htr _ _ _ hs ht)

theorem Ok.bind {G : S → S → Prop} (hre : ∀ a, G a a) {Q : Except PyErr B → S → Prop} {m : Prog S A} {k : A → Prog S B} {s : S}
    (h : Ok G (fun r s' => match r with
      | .ok a => Ok G Q (k a) s'
      | .error e => Q (.error e) s') m s) : Ok G Q (bind' m k) s := by
  induction m generalizing s with
  | done r =>
    cases r with
    | ok a => exact h s (hre s)
    | error e => exact h
  | read k' ih => exact fun s' hs => ih _ (h s' hs)
  | write f k' ih => exact fun s' hs => ⟨(h s' hs).1, ih (h s' hs).2⟩

theorem Ok.weaken {G : S → S → Prop} {Q Q' : Except PyErr A → S → Prop} (hq : ∀ r s, Q r s → Q' r s) {m : Prog S A} {s : S}
    (h : Ok G Q m s) : Ok G Q' m s := by
  induction m generalizing s with
  | done r => exact fun s' hs => hq _ _ (h s' hs)
  | read k' ih => exact fun s' hs => ih _ (h s' hs)
  | write f k' ih => exact fun s' hs => ⟨(h s' hs).1, ih (h s' hs).2⟩

theorem Ok.get {G : S → S → Prop} {Q : Except PyErr S → S → Prop} {s : S}
    (h : ∀ s', G s s' → ∀ s'', G s' s'' → Q (.ok s') s'') : Ok G Q Prog.get s := h

theorem Ok.put {G : S → S → Prop} {f : S → S} {Q : Except PyErr Unit → S → Prop} {s : S}
    (h : ∀ s', G s s' → G s' (f s') ∧ ∀ s'', G (f s') s'' → Q (.ok ()) s'') : Ok G Q (Prog.put f) s := h

theorem Ok.lift {G : S → S → Prop} {x : Except PyErr A} {Q : Except PyErr A → S → Prop} {s : S}
    (h : ∀ s', G s s' → Q x s') : Ok G Q (Prog.lift x) s := h

/-- soundness: if every thread keeps to `G`, every thread does so under every schedule -/
theorem Ok.sound {G : S → S → Prop} (hre : ∀ a, G a a) (htr : ∀ a b c, G a b → G b c → G a c)
    {Q : ι → Except PyErr A → S → Prop} {c : Sys ι S A} (h : ∀ i, Ok G (Q i) (c.thread i) c.shared) (sched : List ι) :
    G c.shared (c.exec sched).shared ∧ ∀ i, Ok G (Q i) ((c.exec sched).thread i) (c.exec sched).shared := by
  induction sched generalizing c with
  | nil => exact ⟨hre _, h⟩
  | cons j l ih =>
    have key : G c.shared (c.tick j).shared ∧ ∀ i, Ok G (Q i) ((c.tick j).thread i) (c.tick j).shared := by
      have hj := h j
      cases hp : c.thread j with
      | done r => rw [Sys.tick_done hp]; exact ⟨hre _, h⟩
      | read k =>
        rw [hp] at hj
        rw [Sys.tick_read hp]
        refine ⟨hre _, fun i => ?_⟩
        by_cases hi : i = j
        · subst hi; simpa using hj _ (hre _)
        · simpa [Function.update_of_ne hi] using h i
      | write f k =>
        rw [hp] at hj
        rw [Sys.tick_write hp]
        obtain ⟨h1, h2⟩ := hj _ (hre _)
        refine ⟨h1, fun i => ?_⟩
        by_cases hi : i = j
        · subst hi; simpa using h2
        · simpa [Function.update_of_ne hi] using (h i).mono htr h1
    obtain ⟨k1, k2⟩ := ih key.2
    exact ⟨htr _ _ _ key.1 k1, k2⟩

/-- the outcome of a finished thread -/
theorem Ok.result {G : S → S → Prop} (hre : ∀ a, G a a) (htr : ∀ a b c, G a b → G b c → G a c)
    {Q : ι → Except PyErr A → S → Prop} {c : Sys ι S A} (h : ∀ i, Ok G (Q i) (c.thread i) c.shared) (sched : List ι)
    {i : ι} {r : Except PyErr A} (hr : (c.exec sched).result i = some r) : Q i r (c.exec sched).shared := by
  have := (Ok.sound hre htr h sched).2 i
  unfold Sys.result at hr
  cases hp : (c.exec sched).thread i with
  | done r' =>
    rw [hp] at hr this
    simp only [Option.some.injEq] at hr
    subst hr
    exact this _ (hre _)
  | read k => rw [hp] at hr; cases hr
  | write f k => rw [hp] at hr; cases hr

end
end Frds.Model.Conc
