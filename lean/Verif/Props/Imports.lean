import Verif.Lemmas.Imports
import Verif.Spec.Imports

/-! C94, C123: importing the modules of the package, after any history of imports. -/
namespace Frds.Props
open Frds.Model.Imports Frds.Spec.Imports Frds.Lemmas.Imports

theorem unusable_iff (env : Env) (m : Mod) : Unusable env m ↔ brokenB env m = true := by
  constructor
  · intro h
    induction h with
    | @missing m h => revert h; cases m <;> simp [present, brokenB]
    | @inPackage m p hp _ ih => revert hp ih; cases m <;> simp only [parent, Option.some.injEq, reduceCtorEq,
        false_implies] <;> (rintro rfl; simp [brokenB])
    | @needs m m' ns hb _ ih =>
      revert hb ih
      cases m <;> simp [body, fromSym] <;>
        first
          | (rintro rfl _; simp [brokenB]; done)
          | (rintro (⟨rfl, _⟩ | ⟨rfl, _⟩) <;> simp [brokenB]; done)
          | (cases m' <;> simp [brokenB]; done)
  · intro h
    have hop : Unusable env .optionPrice := .missing rfl
    have hff : Unusable env .findFace := .needs (List.mem_cons_self ..) hop
    have hmm : Unusable env .mmComputation := .needs (ns := [.sym .find_face_value_indiv]) (m' := .findFace)
      (by simp [body, fromSym]) hff
    have hsc : Unusable env .scComputation := .needs (ns := [.sym .find_face_value_indiv]) (m' := .findFace)
      (by simp [body, fromSym]) hff
    have hif : env.iforestExt = false → Unusable env .iforest := fun h' =>
      .needs (List.mem_cons_self ..) (.missing (m := .iforestExt) h')
    revert h
    cases m <;> simp only [brokenB, Bool.false_eq_true, false_implies, Bool.not_eq_true', true_implies] <;>
      first
        | exact hop
        | exact hff
        | exact hmm
        | exact hsc
        | exact hif
        | exact fun h' => .missing h'
        | exact .needs (List.mem_cons_self ..) hop
        | exact .needs (List.mem_cons_self ..) hmm
        | exact .needs (List.mem_cons_self ..) hsc

def noBits : Bits := ⟨false, false, false, false, false, false, false, false, false, false, false⟩

theorem clean_noBits (env : Env) : clean env noBits = noModules := by
  funext m; cases m <;> rfl

theorem history' (env : Env) (hist : List Mod) : ∃ b, okBits env b = true ∧
    (importAll env noModules hist).1 = clean env b ∧
    (importAll env noModules hist).2 = hist.map (outcome env) := by
  have := history env noBits rfl hist
  rwa [clean_noBits] at this

/-- After any sequence of imports (failed ones caught), importing a module raises `ModuleNotFoundError` exactly
if the module is unusable, and succeeds otherwise. -/
theorem C94_import (env : Env) (hist : List Mod) (m : Mod) :
    (Unusable env m →
      (importMod env depth (importAll env noModules hist).1 m).2 = some .moduleNotFound) ∧
    (¬ Unusable env m → (importMod env depth (importAll env noModules hist).1 m).2 = none ∧
      FullyLoaded (importMod env depth (importAll env noModules hist).1 m).1 m) := by
  obtain ⟨b, hb, h1, -⟩ := history' env hist
  rw [h1, import_spec env b m hb, unusable_iff]
  constructor
  · intro h; simp [outcome, h]
  · intro h
    rw [Bool.not_eq_true] at h
    refine ⟨by simp [outcome, h], ?_⟩
    have : loadedIn env (after env b m) m = true := by
      revert h hb
      rcases b with ⟨fr, al, ms, ds, ifo, lob, pri, spr, mer, fft, loan⟩
      rcases env with ⟨ue, me, ie⟩
      cases m <;> simp (config := { contextual := true }) [after, loadedIn, brokenB]
    simp [FullyLoaded, clean, this]

/-- No history leaves an unusable module in `sys.modules`, nor any module half executed. -/
theorem C94_sys_modules (env : Env) (hist : List Mod) (m : Mod) :
    (Unusable env m → (importAll env noModules hist).1 m = none) ∧
    ((importAll env noModules hist).1 m ≠ none → FullyLoaded (importAll env noModules hist).1 m) := by
  obtain ⟨b, hb, h1, -⟩ := history' env hist
  rw [h1, unusable_iff]
  constructor
  · intro h
    have : loadedIn env b m = false := by
      revert h hb
      rcases b with ⟨fr, al, ms, ds, ifo, lob, pri, spr, mer, fft, loan⟩
      rcases env with ⟨ue, me, ie⟩
      cases m <;> simp only [loadedIn, brokenB, okBits] <;> grind
    simp [clean, this]
  · intro h
    unfold FullyLoaded
    unfold clean at h ⊢
    split_ifs with h2
    · rfl
    · simp [h2] at h

/-- The unusable modules: those that reach the missing `frds.measures.option_price`, and what depends on an
extension that was not built. -/
theorem C94_list (env : Env) (m : Mod) : Unusable env m ↔
    m ∈ [Mod.optionPrice, .findFace, .mertonSolution, .mmComputation, .mmLookup, .mmSimulation, .scComputation,
      .scSolution, .smLookup] ∨
    (m ∈ [Mod.iforest, .iforestExt] ∧ env.iforestExt = false) ∨ (m = .utilsExt ∧ env.utilsExt = false) ∨
    (m = .measuresExt ∧ env.measuresExt = false) := by
  rw [unusable_iff]
  cases m <;> simp [brokenB]

/-- a name of a module can be imported from it: `from m import s` raises nothing -/
def CanImport (env : Env) (st : SysModules) (m : Mod) (s : Sym) : Prop :=
  (execStmt env (importMod env depth) (.imp false m [.sym s]) st).2 = none

theorem canImport_of (env : Env) (b : Bits) (m : Mod) (s : Sym) (hb : okBits env b = true)
    (hm : brokenB env m = false) (hl : loadedIn env (after env b m) m = true)
    (hs : s ∈ (body m).flatMap Stmt.binds) : CanImport env (clean env b) m s := by
  unfold CanImport
  rw [execStmt, import_spec env b m hb]
  have : outcome env m = none := by simp [outcome, hm]
  simp only [this, bindNames]
  have h2 : s ∈ bound (clean env (after env b m)) m := by
    simp only [bound, clean, hl, if_true, List.take_length]; exact hs
  rw [if_pos h2]

/-- Every public name of the three packages can be imported after any history of imports, whether or not the
extensions were built, although modules of the packages import from the packages while these are being
initialised. -/
theorem C123_public_names (env : Env) (hist : List Mod) :
    (∀ s ∈ measuresAll, CanImport env (importAll env noModules hist).1 .measures s) ∧
    (∀ s ∈ algorithmsAll, CanImport env (importAll env noModules hist).1 .algorithms s) ∧
    CanImport env (importAll env noModules hist).1 .datasets .StockReturns := by
  obtain ⟨b, hb, h1, -⟩ := history' env hist
  rw [h1]
  refine ⟨fun s hs => canImport_of env b _ s hb rfl rfl ?_, fun s hs => canImport_of env b _ s hb rfl rfl ?_,
    canImport_of env b _ _ hb rfl rfl ?_⟩
  · revert hs; cases s <;> decide
  · revert hs; cases s <;> decide
  · decide

/-- The outcome of an import never depends on what was imported before, and a sequence of imports gives each
module the outcome it would have in a fresh interpreter. -/
theorem C123_order_independent (env : Env) (hist : List Mod) :
    (importAll env noModules hist).2 = hist.map fun m => (importMod env depth noModules m).2 := by
  obtain ⟨-, -, -, h2⟩ := history' env hist
  rw [h2]
  refine List.map_congr_left fun m _ => ?_
  rw [← clean_noBits env, import_spec env noBits m rfl]

/-- Once loaded, a module stays loaded. -/
theorem C123_stays (env : Env) (hist more : List Mod) (m : Mod)
    (h : FullyLoaded (importAll env noModules hist).1 m) :
    FullyLoaded (importAll env noModules (hist ++ more)).1 m := by
  have happ : ∀ (l : List Mod) (st : SysModules),
      (importAll env st (l ++ more)).1 = (importAll env (importAll env st l).1 more).1 := by
    intro l
    induction l with
    | nil => intro st; rfl
    | cons a t ih => intro st; exact ih _
  rw [happ]
  obtain ⟨b, hb, h1, -⟩ := history' env hist
  rw [h1] at h ⊢
  clear h1 happ
  induction more generalizing b with
  | nil => exact h
  | cons a t ih =>
    simp only [importAll, import_spec env b a hb]
    refine ih _ ?_ (okBits_after env b a hb)
    unfold FullyLoaded clean at h ⊢
    have h3 : loadedIn env b m = true := by
      by_contra h4; simp [h4] at h
    have h5 : loadedIn env (after env b a) m = true := by
      revert h3
      rcases b with ⟨fr, al, ms, ds, ifo, lob, pri, spr, mer, fft, loan⟩
      cases a <;> cases m <;> simp (config := { contextual := true }) [loadedIn, after]
    simp [h5]

/-- concrete: a fresh interpreter, no extension built -/
example : (importMod ⟨false, false, false⟩ depth noModules .mmLookup).2 = some .moduleNotFound ∧
    (importMod ⟨false, false, false⟩ depth noModules .mmLookup).1 .fftsmooth = some 1 ∧
    (importMod ⟨false, false, false⟩ depth noModules .srisk).2 = none := ⟨rfl, rfl, rfl⟩

end Frds.Props
