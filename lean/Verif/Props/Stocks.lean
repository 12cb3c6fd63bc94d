import Verif.Model.Stocks
import Mathlib.Data.List.Forall2

/-! C59-C60: the stock-return data set singleton. -/
namespace Frds.Props
open Frds.Model

/-! ### C59 -/

/-- what a client may rely on after import: instance 0 is registered; at most one frame exists, and
only instance 0 points to it -/
def StockInv {α} (s : StockState α) : Prop :=
  s.instances = some 0 ∧ s.nInst = 1 ∧
    ((s.frames = [] ∧ ∀ i, s.attr i = none) ∨
     (s.frames.length = 1 ∧ s.attr 0 = some 0 ∧ ∀ i, i ≠ 0 → s.attr i = none))

/-- clients only read instances they obtained from the class -/
def Honest {α} (op : StockOp α) : Prop := ∀ i csv, op = .read i csv → i = 0

theorem stockStep_inv {α} {s : StockState α} (h : StockInv s) {op : StockOp α} (ho : Honest op) :
    StockInv (stockStep s op).1 ∧
    (op = .construct → (stockStep s op).2 = some 0) ∧
    (∀ i c, op = .read i (some c) → (stockStep s op).2 = some 0) ∧
    (∀ i, op = .read i none → (stockStep s op).2 = if s.frames = [] then none else some 0) := by
  obtain ⟨h1, h2, h3⟩ := h
  cases op with
  | construct =>
    refine ⟨?_, ?_, by simp, by simp⟩
    · simp only [stockStep, construct, h1]; exact ⟨h1, h2, h3⟩
    · intro _; simp [stockStep, construct, h1]
  | mutate d f =>
    refine ⟨⟨h1, h2, ?_⟩, by simp, by simp, by simp⟩
    simp only [stockStep]
    rcases h3 with ⟨a, b⟩ | ⟨a, b, c⟩
    · left; exact ⟨by simp [a], b⟩
    · right; exact ⟨by simpa using a, b, c⟩
  | read i csv =>
    have hi := ho i csv rfl
    subst hi
    rcases h3 with ⟨a, b⟩ | ⟨a, b, c⟩
    · cases csv with
      | none =>
        refine ⟨?_, by simp, by simp, ?_⟩
        · simp only [stockStep, stocksUs, b]; exact ⟨h1, h2, .inl ⟨a, b⟩⟩
        · intro _ _; simp [stockStep, stocksUs, b, a]
      | some c =>
        refine ⟨?_, by simp, ?_, by simp⟩
        · simp only [stockStep, stocksUs, b, a, StockInv]
          refine ⟨h1, h2, .inr ⟨by simp, by simp, ?_⟩⟩
          intro i hi; simp [Function.update, hi, b]
        · intro _ _ _; simp [stockStep, stocksUs, b, a]
    · have hne : s.frames ≠ [] := by intro e; rw [e] at a; simp at a
      refine ⟨?_, by simp, ?_, ?_⟩
      · simp only [stockStep, stocksUs, b]; exact ⟨h1, h2, .inr ⟨a, b, c⟩⟩
      · intro _ _ _; simp [stockStep, stocksUs, b]
      · intro _ _; simp [stockStep, stocksUs, b, hne]

theorem afterImport_inv (α : Type) : StockInv (afterImport α) :=
  ⟨rfl, rfl, .inl ⟨rfl, fun _ => rfl⟩⟩

theorem stockRun_inv {α} {s : StockState α} (h : StockInv s) {ops : List (StockOp α)}
    (ho : ∀ op ∈ ops, Honest op) : StockInv (stockRun s ops).1 := by
  induction ops generalizing s with
  | nil => exact h
  | cons op t ih =>
    exact ih (stockStep_inv h (ho op (by simp))).1 fun o h => ho o (by simp [h])

/-- C59: after import, in every history of class calls, reads and in-place mutations, every class
call returns the one instance 0, every read whose file access works returns the one frame 0, a read
whose file access fails raises or returns that same frame, and at most one frame is ever created. -/
theorem C59_singleton {α} (ops : List (StockOp α)) (ho : ∀ op ∈ ops, Honest op) :
    List.Forall₂ (fun op r => (op = .construct → r = some 0) ∧
        (∀ i c, op = .read i (some c) → r = some 0) ∧ (∀ i, op = .read i none → r = none ∨ r = some 0))
      ops (stockRun (afterImport α) ops).2 ∧
    (stockRun (afterImport α) ops).1.frames.length ≤ 1 ∧
    (stockRun (afterImport α) ops).1.nInst = 1 := by
  have hinv := stockRun_inv (afterImport_inv α) ho
  refine ⟨?_, ?_, hinv.2.1⟩
  · have : ∀ (s : StockState α), StockInv s → List.Forall₂ (fun op r => (op = .construct → r = some 0) ∧
        (∀ i c, op = .read i (some c) → r = some 0) ∧ (∀ i, op = .read i none → r = none ∨ r = some 0))
        ops (stockRun s ops).2 := by
      clear hinv
      induction ops with
      | nil => intro s _; exact .nil
      | cons op t ih =>
        intro s hs
        obtain ⟨h1, h2, h3, h4⟩ := stockStep_inv hs (ho op (by simp))
        refine .cons ⟨h2, h3, ?_⟩ (ih (fun o h => ho o (by simp [h])) _ h1)
        intro i hi
        rw [h4 i hi]
        split_ifs <;> simp
    exact this _ (afterImport_inv α)
  · rcases hinv.2.2 with ⟨a, _⟩ | ⟨a, _⟩ <;> simp [a]

/-- contents a reader of the shared frame sees after a history: the first successfully read file,
transformed by every later in-place mutation of frame 0 (mutations before the first read have
nothing to change) -/
def sharedContents {α} : Option α → List (StockOp α) → Option α
  | c, [] => c
  | none, .read _ csv :: t => sharedContents csv t
  | none, _ :: t => sharedContents none t
  | some c, .mutate 0 f :: t => sharedContents (some (f c)) t
  | some c, _ :: t => sharedContents (some c) t

/-- C59: every user sees every earlier in-place mutation: the frame's contents after any history
are the file's contents at the first successful read with all later mutations applied. The file is
not read again. -/
theorem C59_shared_mutation {α} (ops : List (StockOp α)) (ho : ∀ op ∈ ops, Honest op) :
    (stockRun (afterImport α) ops).1.frames = (sharedContents none ops).toList := by
  have : ∀ (s : StockState α) (c : Option α), StockInv s → s.frames = c.toList →
      (stockRun s ops).1.frames = (sharedContents c ops).toList := by
    induction ops with
    | nil => intro s c _ h; simpa [sharedContents, stockRun] using h
    | cons op t ih =>
      intro s c hs hc
      have hh := ho op (by simp)
      have hn := (stockStep_inv hs hh).1
      have ih := ih fun o h => ho o (by simp [h])
      simp only [stockRun]
      cases c with
      | none =>
        have hf : s.frames = [] := by simpa using hc
        have hattr : ∀ i, s.attr i = none := by
          rcases hs.2.2 with ⟨_, b⟩ | ⟨a, _⟩
          · exact b
          · rw [hf] at a; simp at a
        cases op with
        | construct =>
          refine ih _ none hn ?_
          simp [stockStep, construct, hs.1, hf]
        | mutate d f =>
          refine ih _ none hn ?_
          simp [stockStep, hf]
        | read i csv =>
          refine ih _ csv hn ?_
          cases csv <;> simp [stockStep, stocksUs, hattr, hf]
      | some c =>
        have hf : s.frames = [c] := by simpa using hc
        have hattr : s.attr 0 = some 0 := by
          rcases hs.2.2 with ⟨a, _⟩ | ⟨_, b, _⟩
          · rw [hf] at a; simp at a
          · exact b
        cases op with
        | construct =>
          refine ih _ (some c) hn ?_
          simp [stockStep, construct, hs.1, hf]
        | mutate d f =>
          cases d with
          | zero => refine ih _ (some (f c)) hn ?_; simp [stockStep, hf]
          | succ d => refine ih _ (some c) hn ?_; simp [stockStep, hf]
        | read i csv =>
          have := hh i csv rfl
          subst this
          refine ih _ (some c) hn ?_
          simp [stockStep, stocksUs, hattr, hf]
  exact this _ none (afterImport_inv α) rfl

example : (∀ op ∈ [StockOp.construct, .read 0 (some 5), .mutate 0 (· + 1), .read 0 none], Honest op) ∧
    (stockRun (afterImport ℕ) [.construct, .read 0 (some 5), .mutate 0 (· + 1), .read 0 none]).2
      = [some 0, some 0, none, some 0] := by
  refine ⟨?_, rfl⟩
  intro op h i csv e
  subst e
  simp at h
  rcases h with h | h <;> exact h.1

/-! ### C60 -/

/-- C60: once the cell is filled (after import), in every interleaving of any threads every call that
returns, returns that same object, and no object is created. -/
theorem C60_after_import (c n : ℕ) (sched : List ℕ) :
    let s := cellRun (cellInit (some c) n) sched
    s.cell = some c ∧ s.fresh = n ∧ ∀ t x, s.pc t = .done x → x = some c := by
  have key : ∀ (l : List ℕ) (s : CellState), s.cell = some c → s.fresh = n →
      (∀ t, s.pc t = .start ∨ s.pc t = .load ∨ s.pc t = .done (some c)) →
      let s' := cellRun s l
      s'.cell = some c ∧ s'.fresh = n ∧ ∀ t, s'.pc t = .start ∨ s'.pc t = .load ∨ s'.pc t = .done (some c) := by
    intro l
    induction l with
    | nil => intro s h1 h2 h3; exact ⟨h1, h2, h3⟩
    | cons t l ih =>
      intro s h1 h2 h3
      have : (cellStep s t).cell = some c ∧ (cellStep s t).fresh = n ∧
          ∀ u, (cellStep s t).pc u = .start ∨ (cellStep s t).pc u = .load ∨ (cellStep s t).pc u = .done (some c) := by
        unfold cellStep
        rcases h3 t with e | e | e <;> rw [e]
        · refine ⟨h1, h2, fun u => ?_⟩
          by_cases hu : u = t
          · subst hu; simp [h1]
          · simp [Function.update, hu, h3 u]
        · refine ⟨h1, h2, fun u => ?_⟩
          by_cases hu : u = t
          · subst hu; simp [h1]
          · simp [Function.update, hu, h3 u]
        · exact ⟨h1, h2, h3⟩
      exact ih _ this.1 this.2.1 this.2.2
  obtain ⟨a, b, d⟩ := key sched (cellInit (some c) n) rfl rfl fun _ => .inl rfl
  refine ⟨a, b, ?_⟩
  intro t x hx
  rcases d t with e | e | e
  · rw [e] at hx; cases hx
  · rw [e] at hx; cases hx
  · rw [e] at hx; cases hx; rfl

/-- C60: whatever the initial cell and the schedule, a call never returns "nothing": every returned
value is an object that was created (identity below the allocation counter). -/
theorem C60_never_none (n : ℕ) (sched : List ℕ) :
    let s := cellRun (cellInit none n) sched
    ∀ t x, s.pc t = .done x → ∃ i, x = some i ∧ n ≤ i ∧ i < s.fresh := by
  let Inv : CellState → Prop := fun s =>
    n ≤ s.fresh ∧ (∀ i, s.cell = some i → n ≤ i ∧ i < s.fresh) ∧
    (∀ t x, s.pc t = .store x → n ≤ x ∧ x < s.fresh) ∧
    (∀ t, s.pc t = .load → s.cell.isSome) ∧
    (∀ t x, s.pc t = .done x → ∃ i, x = some i ∧ n ≤ i ∧ i < s.fresh)
  have step : ∀ s t, Inv s → Inv (cellStep s t) := by
    rintro s t ⟨h0, h1, h2, h3, h4⟩
    unfold cellStep
    cases e : s.pc t with
    | start =>
      refine ⟨h0, h1, ?_, ?_, ?_⟩
      · intro u x hu
        by_cases hut : u = t
        · subst hut; simp only [Function.update_self] at hu; split_ifs at hu
        · simp only [Function.update_of_ne hut] at hu; exact h2 u x hu
      · intro u hu
        by_cases hut : u = t
        · subst hut; simp only [Function.update_self] at hu; split_ifs at hu with g; exact g
        · simp only [Function.update_of_ne hut] at hu; exact h3 u hu
      · intro u x hu
        by_cases hut : u = t
        · subst hut; simp only [Function.update_self] at hu; split_ifs at hu
        · simp only [Function.update_of_ne hut] at hu; exact h4 u x hu
    | create =>
      refine ⟨by dsimp only; omega, fun i hi => ?_, ?_, ?_, ?_⟩
      · have := h1 i hi; dsimp only; omega
      · intro u x hu
        by_cases hut : u = t
        · subst hut; simp only [Function.update_self, Pc.store.injEq] at hu; dsimp only; omega
        · simp only [Function.update_of_ne hut] at hu; have := h2 u x hu; dsimp only; omega
      · intro u hu
        by_cases hut : u = t
        · subst hut; simp only [Function.update_self] at hu; cases hu
        · simp only [Function.update_of_ne hut] at hu; exact h3 u hu
      · intro u x hu
        by_cases hut : u = t
        · subst hut; simp only [Function.update_self] at hu; cases hu
        · simp only [Function.update_of_ne hut] at hu
          obtain ⟨i, e, a, b⟩ := h4 u x hu
          exact ⟨i, e, a, by dsimp only; omega⟩
    | store y =>
      have hy := h2 t y e
      refine ⟨h0, fun i hi => ?_, ?_, ?_, ?_⟩
      · simp only [Option.some.injEq] at hi; subst hi; exact hy
      · intro u x hu
        by_cases hut : u = t
        · subst hut; simp only [Function.update_self] at hu; cases hu
        · simp only [Function.update_of_ne hut] at hu; exact h2 u x hu
      · intro u hu; rfl
      · intro u x hu
        by_cases hut : u = t
        · subst hut; simp only [Function.update_self] at hu; cases hu
        · simp only [Function.update_of_ne hut] at hu; exact h4 u x hu
    | load =>
      have hl := h3 t e
      refine ⟨h0, h1, ?_, ?_, ?_⟩
      · intro u x hu
        by_cases hut : u = t
        · subst hut; simp only [Function.update_self] at hu; cases hu
        · simp only [Function.update_of_ne hut] at hu; exact h2 u x hu
      · intro u hu
        by_cases hut : u = t
        · subst hut; simp only [Function.update_self] at hu; cases hu
        · simp only [Function.update_of_ne hut] at hu; exact h3 u hu
      · intro u x hu
        by_cases hut : u = t
        · subst hut
          simp only [Function.update_self, Pc.done.injEq] at hu
          obtain ⟨i, hi⟩ := Option.isSome_iff_exists.mp hl
          exact ⟨i, by rw [← hu, hi], h1 i hi⟩
        · simp only [Function.update_of_ne hut] at hu; exact h4 u x hu
    | done y => exact ⟨h0, h1, h2, h3, h4⟩
  have run : ∀ (l : List ℕ) s, Inv s → Inv (cellRun s l) := by
    intro l
    induction l with
    | nil => intro s h; exact h
    | cons t l ih => intro s h; exact ih _ (step s t h)
  have h0 : Inv (cellInit none n) :=
    ⟨Nat.le_refl _, fun i h => (by cases h), fun t x h => (by cases h), fun t h => (by cases h), fun t x h => (by cases h)⟩
  exact (run sched _ h0).2.2.2.2

/-- C60: before the first instance exists the check-then-act is a race: some interleaving of two
threads makes the two calls return different objects. -/
theorem C60_race (n : ℕ) : ∃ sched : List ℕ, ∃ i j : ℕ, i ≠ j ∧
    (cellRun (cellInit none n) sched).pc 0 = .done (some i) ∧
    (cellRun (cellInit none n) sched).pc 1 = .done (some j) :=
  ⟨[0, 1, 0, 1, 0, 0, 1, 1], n, n + 1, by omega, rfl, rfl⟩

/-- C60: without overlap there is no race: if each call runs to completion before the next starts,
all calls return the same object and exactly one object is created (for at least one call). -/
theorem C60_serial (n : ℕ) (calls : List ℕ) (hd : calls.Nodup) :
    let s := cellRun (cellInit none n) (calls.flatMap fun t => [t, t, t, t])
    ∀ t ∈ calls, s.pc t = .done (some n) := by
  have filled : ∀ (l : List ℕ) (s : CellState), l.Nodup → s.cell = some n → (∀ t ∈ l, s.pc t = .start) →
      let s' := cellRun s (l.flatMap fun t => [t, t, t, t])
      (∀ t ∈ l, s'.pc t = .done (some n)) ∧ (∀ t, t ∉ l → s'.pc t = s.pc t) := by
    intro l
    induction l with
    | nil => intro s _ _ _; exact ⟨by simp, fun _ _ => rfl⟩
    | cons t l ih =>
      intro s hn hc hp
      rw [List.nodup_cons] at hn
      have h4 : cellRun s [t, t, t, t] = { s with pc := Function.update s.pc t (.done (some n)) } := by
        simp [cellRun, cellStep, hp t (by simp), hc]
      have e : cellRun s ((t :: l).flatMap fun t => [t, t, t, t])
          = cellRun (cellRun s [t, t, t, t]) (l.flatMap fun t => [t, t, t, t]) := by
        simp only [List.flatMap_cons, cellRun, List.foldl_append]
      rw [e, h4]
      obtain ⟨a, b⟩ := ih { s with pc := Function.update s.pc t (.done (some n)) } hn.2 hc (by
        intro u hu
        have : u ≠ t := fun h => hn.1 (h ▸ hu)
        simp [Function.update, this, hp u (by simp [hu])])
      refine ⟨?_, ?_⟩
      · intro u hu
        rcases List.mem_cons.mp hu with rfl | hu
        · rw [b u hn.1]; simp
        · exact a u hu
      · intro u hu
        simp only [List.mem_cons, not_or] at hu
        rw [b u hu.2]; simp [Function.update, hu.1]
  cases calls with
  | nil => intro s t ht; simp at ht
  | cons t l =>
    rw [List.nodup_cons] at hd
    have h4 : cellRun (cellInit none n) [t, t, t, t]
        = ⟨some n, n + 1, Function.update (fun _ => .start) t (.done (some n))⟩ := by
      simp [cellRun, cellStep, cellInit]
    intro s u hu
    have e : s = cellRun (cellRun (cellInit none n) [t, t, t, t]) (l.flatMap fun t => [t, t, t, t]) := by
      simp only [s, List.flatMap_cons, cellRun, List.foldl_append]
    rw [e, h4]
    obtain ⟨a, b⟩ := filled l ⟨some n, n + 1, Function.update (fun _ => .start) t (.done (some n))⟩ hd.2 rfl (by
      intro v hv
      have : v ≠ t := fun h => hd.1 (h ▸ hv)
      simp [Function.update, this])
    rcases List.mem_cons.mp hu with rfl | hu
    · rw [b u hd.1]; simp
    · exact a u hu

example : [3, 1, 2].Nodup := by decide

/-! ### Concrete cases of the theorems above -/

/-- construct, load, change the shared frame, load again -/
def stockSession : List (StockOp ℕ) := [.construct, .read 0 (some 5), .mutate 0 (· + 1), .read 0 none]

theorem stockSession_ok : ∀ op ∈ stockSession, Honest op := by
  intro op h i csv e
  subst e
  simp [stockSession] at h
  rcases h with h | h <;> exact h.1

example := C59_singleton stockSession stockSession_ok
example := C59_shared_mutation stockSession stockSession_ok
example := C60_serial 0 [3, 1, 2] (by decide)

end Frds.Props
