import Verif.Model.ImportGraph

/-! Symbolic execution of the imports: every state between two imports of a client is described by eleven
bits, and the effect of each import on them is computed. -/
namespace Frds.Lemmas.Imports
open Frds.Model.Imports

/-- which groups of modules are loaded -/
structure Bits where
  fr : Bool
  al : Bool
  ms : Bool
  ds : Bool
  ifo : Bool
  lob : Bool
  pri : Bool
  spr : Bool
  mer : Bool
  fft : Bool
  loan : Bool

def loadedIn (env : Env) (b : Bits) : Mod → Bool
  | .frds => b.fr
  | .algorithms | .garch | .mgarch | .utils => b.al
  | .utilsExt => b.al && env.utilsExt
  | .iforest | .iforestExt => b.ifo
  | .datasets | .stocks => b.ds
  | .measures | .absorption | .cca | .dip | .lerner | .lrmes | .mes | .pin | .srisk | .ses | .kyle
  | .optionPricePriv | .zScore => b.ms
  | .measuresExt => b.ms && env.measuresExt
  | .lobSlope => b.lob
  | .priceImpact => b.pri
  | .spread => b.spr
  | .merton => b.mer
  | .fftsmooth => b.fft
  | .loanPayoff => b.loan
  | _ => false

/-- the state of `sys.modules` between imports -/
def clean (env : Env) (b : Bits) : SysModules :=
  fun m => if loadedIn env b m then some (body m).length else none

/-- combinations of bits that occur -/
def okBits (env : Env) (b : Bits) : Bool :=
  (!b.al || b.fr) && (!b.ms || b.al) && (!b.ds || b.fr) && (!b.ifo || (b.al && env.iforestExt)) &&
  (!b.lob || b.ms) && (!b.pri || b.ms) && (!b.spr || b.ms) && (!b.mer || b.ms) && (!b.fft || b.mer) &&
  (!b.loan || b.mer)

/-- the bits after `import m` -/
def after (env : Env) (b : Bits) : Mod → Bits
  | .frds => { b with fr := true }
  | .algorithms | .garch | .mgarch | .utils | .utilsExt => { b with fr := true, al := true }
  | .iforest | .iforestExt => { b with fr := true, al := true, ifo := b.ifo || env.iforestExt }
  | .datasets | .stocks => { b with fr := true, ds := true }
  | .measures | .absorption | .cca | .dip | .lerner | .lrmes | .mes | .pin | .srisk | .ses | .kyle
  | .optionPricePriv | .zScore | .measuresExt | .optionPrice => { b with fr := true, al := true, ms := true }
  | .lobSlope => { b with fr := true, al := true, ms := true, lob := true }
  | .priceImpact => { b with fr := true, al := true, ms := true, pri := true }
  | .spread => { b with fr := true, al := true, ms := true, spr := true }
  | .merton | .findFace | .mertonSolution | .mmSimulation =>
    { b with fr := true, al := true, ms := true, mer := true }
  | .fftsmooth => { b with fr := true, al := true, ms := true, mer := true, fft := true }
  | .loanPayoff => { b with fr := true, al := true, ms := true, mer := true, loan := true }
  | .mmComputation | .mmLookup | .scComputation | .scSolution | .smLookup =>
    { b with fr := true, al := true, ms := true, mer := true, fft := true, loan := true }

/-- the modules that cannot be imported -/
def brokenB (env : Env) : Mod → Bool
  | .utilsExt => !env.utilsExt
  | .measuresExt => !env.measuresExt
  | .iforest | .iforestExt => !env.iforestExt
  | .optionPrice | .findFace | .mertonSolution | .mmComputation | .mmLookup | .mmSimulation
  | .scComputation | .scSolution | .smLookup => true
  | _ => false

def outcome (env : Env) (m : Mod) : Option ImpErr := if brokenB env m then some .moduleNotFound else none

theorem okBits_after (env : Env) (b : Bits) (m : Mod) (h : okBits env b = true) :
    okBits env (after env b m) = true := by
  rcases env with ⟨ue, me, ie⟩
  rcases b with ⟨fr, al, ms, ds, ifo, lob, pri, spr, mer, fft, loan⟩
  simp only [okBits, Bool.and_eq_true, Bool.or_eq_true, Bool.not_eq_true'] at h ⊢
  cases m <;> simp only [after] <;> simp <;> grind

set_option maxRecDepth 20000
set_option maxHeartbeats 8000000

macro "pointwise" : tactic =>
  `(tactic| (refine Prod.ext (funext fun m' => ?_) rfl; cases m' <;> rfl))

abbrev Goal (n : ℕ) (env : Env) (b : Bits) (m : Mod) : Prop :=
  importMod env n (clean env b) m = (clean env (after env b m), outcome env m)

/-- importing a module whose package is not loaded yet: load the package, then start again -/
theorem importMod_parent (env : Env) (n : ℕ) (st st1 : SysModules) (m p : Mod) (hm : st m = none)
    (hp : parent m = some p) (h : importMod env (n + 1) st p = (st1, none)) (h1 : (st1 p).isSome = true) :
    importMod env (n + 2) st m = importMod env (n + 2) st1 m := by
  rw [importMod, importMod]
  have h2 : importMod env (n + 1) st1 p = (st1, none) := by rw [importMod, if_pos h1]
  simp only [hm, hp, h, h2, Option.isSome_none, Bool.false_eq_true, if_false]
  by_cases hs : (st1 m).isSome = true
  · simp only [hs, if_true]
  · simp [hs]

theorem reduce {n : ℕ} {env : Env} {b : Bits} {m : Mod} (p : Mod) (hp : parent m = some p)
    (Hp : Goal (n + 1) env b p) (hb : brokenB env p = false) (hl : loadedIn env (after env b p) p = true)
    (hnot : loadedIn env b m = false) (hab : after env (after env b p) m = after env b m)
    (H : Goal (n + 2) env (after env b p) m) : Goal (n + 2) env b m := by
  have h0 : importMod env (n + 1) (clean env b) p = (clean env (after env b p), none) := by
    rw [Hp, outcome, hb]; rfl
  unfold Goal
  rw [importMod_parent env n _ _ m p (by simp [clean, hnot]) hp h0 (by simp [clean, hl]), H, hab]

theorem imp_frds (n : ℕ) (env : Env) (b : Bits) : Goal (n + 1) env b .frds := by
  rcases b with ⟨fr, al, ms, ds, ifo, lob, pri, spr, mer, fft, loan⟩
  cases fr <;> pointwise

theorem imp_datasets (n : ℕ) (env : Env) (b : Bits) (h : okBits env b = true) :
    Goal (n + 20) env b .datasets := by
  rcases b with ⟨fr, al, ms, ds, ifo, lob, pri, spr, mer, fft, loan⟩
  cases fr <;> cases ds <;> first
    | (exfalso; revert h; simp [okBits]; done)
    | pointwise

theorem imp_stocks (n : ℕ) (env : Env) (b : Bits) (h : okBits env b = true) :
    Goal (n + 21) env b .stocks := by
  rcases b with ⟨fr, al, ms, ds, ifo, lob, pri, spr, mer, fft, loan⟩
  cases ds
  · exact reduce (n := n + 19) .datasets rfl (imp_datasets n env _ h) rfl rfl rfl rfl (by pointwise)
  · cases fr
    · (exfalso; revert h; simp [okBits]; done)
    · pointwise

theorem imp_algorithms (n : ℕ) (env : Env) (b : Bits) (h : okBits env b = true) :
    Goal (n + 20) env b .algorithms := by
  rcases b with ⟨fr, al, ms, ds, ifo, lob, pri, spr, mer, fft, loan⟩
  rcases env with ⟨ue, me, ie⟩
  cases fr <;> cases al <;> first
    | (exfalso; revert h; simp [okBits]; done)
    | (cases ue <;> pointwise)

theorem imp_algorithms2 (n : ℕ) (env : Env) (b : Bits) (h : okBits env b = true) (m : Mod)
    (hm : m ∈ [Mod.garch, .mgarch, .utils]) : Goal (n + 21) env b m := by
  rcases b with ⟨fr, al, ms, ds, ifo, lob, pri, spr, mer, fft, loan⟩
  rcases env with ⟨ue, me, ie⟩
  have hA := imp_algorithms n _ _ h
  cases al
  · cases m <;> first
      | (exfalso; revert hm; decide)
      | exact reduce (n := n + 19) .algorithms rfl hA rfl rfl rfl rfl (by pointwise)
  · cases fr
    · (exfalso; revert h; simp [okBits]; done)
    · cases m <;> first
        | (exfalso; revert hm; decide)
        | pointwise

theorem imp_utilsExt (n : ℕ) (env : Env) (b : Bits) (h : okBits env b = true) :
    Goal (n + 22) env b .utilsExt := by
  rcases b with ⟨fr, al, ms, ds, ifo, lob, pri, spr, mer, fft, loan⟩
  rcases env with ⟨ue, me, ie⟩
  have hA := imp_algorithms2 n _ _ h .utils (by decide)
  cases al
  · exact reduce (n := n + 20) .utils rfl hA rfl rfl rfl rfl (by cases ue <;> pointwise)
  · cases fr
    · (exfalso; revert h; simp [okBits]; done)
    · cases ue <;> pointwise

theorem imp_iforest (n : ℕ) (env : Env) (b : Bits) (h : okBits env b = true) :
    Goal (n + 21) env b .iforest ∧ Goal (n + 21) env b .iforestExt := by
  rcases b with ⟨fr, al, ms, ds, ifo, lob, pri, spr, mer, fft, loan⟩
  rcases env with ⟨ue, me, ie⟩
  refine ⟨?_, ?_⟩ <;>
  · cases fr <;> cases al <;> cases ie <;> cases ifo <;> first
      | (exfalso; revert h; simp [okBits]; done)
      | (cases ue <;> pointwise)

theorem imp_measures (n : ℕ) (env : Env) (b : Bits) (h : okBits env b = true) :
    Goal (n + 20) env b .measures := by
  rcases b with ⟨fr, al, ms, ds, ifo, lob, pri, spr, mer, fft, loan⟩
  rcases env with ⟨ue, me, ie⟩
  have hF := imp_frds (n + 18) ⟨ue, me, ie⟩ ⟨fr, al, ms, ds, ifo, lob, pri, spr, mer, fft, loan⟩
  cases fr
  · cases al
    · cases ms
      · exact reduce (n := n + 18) .frds rfl hF rfl rfl rfl rfl (by cases ue <;> cases me <;> pointwise)
      · (exfalso; revert h; simp [okBits]; done)
    · (exfalso; revert h; simp [okBits]; done)
  · cases ms
    · cases al <;> cases ue <;> cases me <;> pointwise
    · cases al
      · (exfalso; revert h; simp [okBits]; done)
      · pointwise

theorem imp_measures2 (n : ℕ) (env : Env) (b : Bits) (h : okBits env b = true) (m : Mod)
    (hm : m ∈ [Mod.absorption, .cca, .dip, .lerner, .lrmes, .mes, .pin, .srisk, .ses, .kyle,
      .optionPricePriv, .zScore, .optionPrice]) : Goal (n + 21) env b m := by
  rcases b with ⟨fr, al, ms, ds, ifo, lob, pri, spr, mer, fft, loan⟩
  have hM := imp_measures n _ _ h
  cases ms
  · cases m <;> first
      | (exfalso; revert hm; decide)
      | exact reduce (n := n + 19) .measures rfl hM rfl rfl rfl rfl (by pointwise)
  · cases al
    · (exfalso; revert h; simp [okBits]; done)
    · cases fr
      · (exfalso; revert h; simp [okBits]; done)
      · cases m <;> first
          | (exfalso; revert hm; decide)
          | pointwise

theorem imp_measuresExt (n : ℕ) (env : Env) (b : Bits) (h : okBits env b = true) :
    Goal (n + 21) env b .measuresExt := by
  rcases b with ⟨fr, al, ms, ds, ifo, lob, pri, spr, mer, fft, loan⟩
  rcases env with ⟨ue, me, ie⟩
  have hM := imp_measures n _ _ h
  cases ms
  · exact reduce (n := n + 19) .measures rfl hM rfl rfl rfl rfl (by cases me <;> pointwise)
  · cases al
    · (exfalso; revert h; simp [okBits]; done)
    · cases fr
      · (exfalso; revert h; simp [okBits]; done)
      · cases me <;> pointwise

theorem imp_lobSlope (n : ℕ) (env : Env) (b : Bits) (h : okBits env b = true) :
    Goal (n + 21) env b .lobSlope := by
  rcases b with ⟨fr, al, ms, ds, ifo, lob, pri, spr, mer, fft, loan⟩
  have hM := imp_measures n _ _ h
  cases fr <;> cases al <;> cases ms <;> cases lob <;> first
    | (exfalso; revert h; simp [okBits]; done)
    | exact reduce (n := n + 19) .measures rfl hM rfl rfl rfl rfl (by pointwise)
    | pointwise

theorem imp_priceImpact (n : ℕ) (env : Env) (b : Bits) (h : okBits env b = true) :
    Goal (n + 21) env b .priceImpact := by
  rcases b with ⟨fr, al, ms, ds, ifo, lob, pri, spr, mer, fft, loan⟩
  have hM := imp_measures n _ _ h
  cases fr <;> cases al <;> cases ms <;> cases pri <;> first
    | (exfalso; revert h; simp [okBits]; done)
    | exact reduce (n := n + 19) .measures rfl hM rfl rfl rfl rfl (by pointwise)
    | pointwise

theorem imp_spread (n : ℕ) (env : Env) (b : Bits) (h : okBits env b = true) :
    Goal (n + 21) env b .spread := by
  rcases b with ⟨fr, al, ms, ds, ifo, lob, pri, spr, mer, fft, loan⟩
  have hM := imp_measures n _ _ h
  cases fr <;> cases al <;> cases ms <;> cases spr <;> first
    | (exfalso; revert h; simp [okBits]; done)
    | exact reduce (n := n + 19) .measures rfl hM rfl rfl rfl rfl (by pointwise)
    | pointwise

theorem imp_merton (n : ℕ) (env : Env) (b : Bits) (h : okBits env b = true) :
    Goal (n + 21) env b .merton := by
  rcases b with ⟨fr, al, ms, ds, ifo, lob, pri, spr, mer, fft, loan⟩
  have hM := imp_measures n _ _ h
  cases fr <;> cases al <;> cases ms <;> cases mer <;> first
    | (exfalso; revert h; simp [okBits]; done)
    | exact reduce (n := n + 19) .measures rfl hM rfl rfl rfl rfl (by pointwise)
    | pointwise

theorem imp_merton2 (n : ℕ) (env : Env) (b : Bits) (h : okBits env b = true) (m : Mod)
    (hm : m ∈ [Mod.findFace, .mertonSolution, .mmSimulation]) : Goal (n + 22) env b m := by
  rcases b with ⟨fr, al, ms, ds, ifo, lob, pri, spr, mer, fft, loan⟩
  have hM := imp_merton n _ _ h
  cases mer
  · cases m <;> first
      | (exfalso; revert hm; decide)
      | exact reduce (n := n + 20) .merton rfl hM rfl rfl rfl rfl (by pointwise)
  · cases fr <;> cases al <;> cases ms <;> first
      | (exfalso; revert h; simp [okBits]; done)
      | (cases m <;> first
          | (exfalso; revert hm; decide)
          | pointwise)

theorem imp_fftsmooth (n : ℕ) (env : Env) (b : Bits) (h : okBits env b = true) :
    Goal (n + 22) env b .fftsmooth := by
  rcases b with ⟨fr, al, ms, ds, ifo, lob, pri, spr, mer, fft, loan⟩
  have hM := imp_merton n _ _ h
  cases fr <;> cases al <;> cases ms <;> cases mer <;> cases fft <;> first
    | (exfalso; revert h; simp [okBits]; done)
    | exact reduce (n := n + 20) .merton rfl hM rfl rfl rfl rfl (by pointwise)
    | pointwise

theorem imp_loanPayoff (n : ℕ) (env : Env) (b : Bits) (h : okBits env b = true) :
    Goal (n + 22) env b .loanPayoff := by
  rcases b with ⟨fr, al, ms, ds, ifo, lob, pri, spr, mer, fft, loan⟩
  have hM := imp_merton n _ _ h
  cases fr <;> cases al <;> cases ms <;> cases mer <;> cases loan <;> first
    | (exfalso; revert h; simp [okBits]; done)
    | exact reduce (n := n + 20) .merton rfl hM rfl rfl rfl rfl (by pointwise)
    | pointwise

theorem imp_merton3 (n : ℕ) (env : Env) (b : Bits) (h : okBits env b = true) (m : Mod)
    (hm : m ∈ [Mod.mmComputation, .mmLookup, .scComputation, .scSolution, .smLookup]) :
    Goal (n + 22) env b m := by
  rcases b with ⟨fr, al, ms, ds, ifo, lob, pri, spr, mer, fft, loan⟩
  have hM := imp_merton n _ _ h
  cases mer
  · cases fft
    · cases loan
      · cases m <;> first
          | (exfalso; revert hm; decide)
          | exact reduce (n := n + 20) .merton rfl hM rfl rfl rfl rfl (by pointwise)
      · (exfalso; revert h; simp [okBits]; done)
    · (exfalso; revert h; simp [okBits]; done)
  · cases fr <;> cases al <;> cases ms <;> first
      | (exfalso; revert h; simp [okBits]; done)
      | (cases fft <;> cases loan <;> cases m <;> first
          | (exfalso; revert hm; decide)
          | pointwise)

/-- the effect of one import -/
theorem import_spec (env : Env) (b : Bits) (m : Mod) (h : okBits env b = true) : Goal depth env b m := by
  cases m
  case frds => exact imp_frds 39 env b
  case algorithms => exact imp_algorithms 20 env b h
  case utilsExt => exact imp_utilsExt 18 env b h
  case iforest => exact (imp_iforest 19 env b h).1
  case iforestExt => exact (imp_iforest 19 env b h).2
  case datasets => exact imp_datasets 20 env b h
  case stocks => exact imp_stocks 19 env b h
  case measures => exact imp_measures 20 env b h
  case measuresExt => exact imp_measuresExt 19 env b h
  case lobSlope => exact imp_lobSlope 19 env b h
  case priceImpact => exact imp_priceImpact 19 env b h
  case spread => exact imp_spread 19 env b h
  case merton => exact imp_merton 19 env b h
  case fftsmooth => exact imp_fftsmooth 18 env b h
  case loanPayoff => exact imp_loanPayoff 18 env b h
  all_goals first
    | exact imp_algorithms2 19 env b h _ (by decide)
    | exact imp_measures2 19 env b h _ (by decide)
    | exact imp_merton2 18 env b h _ (by decide)
    | exact imp_merton3 18 env b h _ (by decide)

/-- every reachable state is described by bits -/
theorem history (env : Env) (b : Bits) (h : okBits env b = true) (hist : List Mod) :
    ∃ b', okBits env b' = true ∧ (importAll env (clean env b) hist).1 = clean env b' ∧
      (importAll env (clean env b) hist).2 = hist.map (outcome env) := by
  induction hist generalizing b with
  | nil => exact ⟨b, h, rfl, rfl⟩
  | cons m t ih =>
    have hs := import_spec env b m h
    obtain ⟨b', hb', h1, h2⟩ := ih (after env b m) (okBits_after env b m h)
    refine ⟨b', hb', ?_, ?_⟩
    · simp only [importAll, hs, h1]
    · simp only [importAll, hs, h2, List.map_cons]

end Frds.Lemmas.Imports
