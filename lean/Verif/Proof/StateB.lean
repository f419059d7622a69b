import Verif.Proof.State

/-! More facts about the traces of the setters: `int` cells, flags, order of checks,
absence of undefined behaviour. -/

namespace Xrtm

open Spec

variable {F : Type}

attribute [local simp] given_eq_some mem_upto mem_between ckIdx ckDerivs ckKernels scalarCmds
  layerCmds layerLCmds coefCmds coefLCmds omegaCmds ltauCmds IsLayer IsDeriv IsKernel linAt
  LinArg.iLo LinArg.iHi LinArg.jLo LinArg.jHi LinArg.val isParam_iff cosDeg outAngle
  mem_adjustCmds_wrI mem_adjustCmds_flag mem_adjustCmds_flagI

/-- Cells of the model that are not inputs but derived from them. -/
def ILoc.derived : ILoc → Bool
  | .nFour2 | .nCoefLayer2 _ => true
  | _ => false

theorem ite_nil_mem {α : Type} {p : Prop} [Decidable p] {a : List α} {x : α} :
    x ∈ (if p then a else []) ↔ p ∧ x ∈ a := by
  split <;> simp_all

attribute [local simp] ite_nil_mem

macro "bothI" : tactic => `(tactic| (apply lastI_of <;> [
  (intro x h; simp [setCmds] at h <;> (revert h; simp only [forall_exists_index, and_imp]; intros; subst_vars; simp [assignI] <;> grind));
  (intro x h; cases ‹ILoc› <;> simp [assignI] at h <;> simp [setCmds] <;> grind)]))

set_option maxHeartbeats 2000000 in
theorem set_lastI [Fp F] (s : State F) (op : Op F) (l : ILoc) (hl : l.derived = false) :
    lastI (setCmds s op) l = assignI s.cfg op l := by
  cases op with
  | setPadeParams a b => cases l <;> simp [setCmds, lastI, assignI]
  | setOutThetas t => 
      apply lastI_of
      · intro x h; simp [setCmds] at h; obtain ⟨rfl, _⟩ := h; simp [ILoc.derived] at hl
      · intro x h; cases l <;> simp [assignI] at h
  | setTheta0 t => 
      apply lastI_of
      · intro x h; simp [setCmds] at h; obtain ⟨rfl, _⟩ := h; simp [ILoc.derived] at hl
      · intro x h; cases l <;> simp [assignI] at h
  | setCoef1 i n c =>
      by_cases hn : n < 0 <;> (apply lastI_of <;> [(intro x h; simp [setCmds, hn] at h; rcases h with ⟨a, h1, ⟨rfl, rfl⟩ | ⟨rfl, rfl⟩⟩ <;> simp [assignI, hn, ILoc.derived] at hl ⊢ <;> omega); (intro x h; cases l <;> simp [assignI, hn] at h <;> simp [setCmds, hn] <;> grind)])
  | setCoefN n c =>
      cases n <;> (apply lastI_of <;> [(intro x h; simp [setCmds] at h; rcases h with ⟨a, h1, ⟨rfl, rfl⟩ | ⟨rfl, rfl⟩⟩ <;> simp [assignI, ILoc.derived] at hl ⊢ <;> omega); (intro x h; cases l <;> simp [assignI] at h <;> simp [setCmds] <;> grind)])
  | setOmegaL a => cases a <;> bothI
  | setLtauL a => cases a <;> bothI
  | _ => bothI

set_option maxHeartbeats 2000000 in
theorem set_flags [Fp F] (s : State F) (op : Op F) (l : SLoc) :
    flags true (setCmds s op) l = true ↔ Provides s.cfg s.kernels op l := by
  rw [flags_iff]
  cases op with
  | setCoef1 i n c => by_cases hn : n < 0 <;> simp [setCmds, Provides, hn] <;> grind
  | setCoefN n c => cases n <;> simp [setCmds, Provides] <;> grind
  | setOmegaL a => cases a <;> simp [setCmds, Provides] <;> grind
  | setLtauL a => cases a <;> simp [setCmds, Provides] <;> grind
  | _ => simp [setCmds, Provides] <;> grind

@[simp] theorem Cmd.pure_check (b : Bool) (c : Code) : (Cmd.check b c : Cmd F).pure = true := rfl
@[simp] theorem Cmd.pure_rd (l : FLoc) : (Cmd.rd l : Cmd F).pure = true := rfl
@[simp] theorem Cmd.pure_rdI (l : ILoc) : (Cmd.rdI l : Cmd F).pure = true := rfl
@[simp] theorem Cmd.pure_needFlag (l : SLoc) (c : Code) : (Cmd.needFlag l c : Cmd F).pure = true := rfl
@[simp] theorem Cmd.canStop_wr (l : FLoc) (x : F) : (Cmd.wr l x).canStop = false := rfl
@[simp] theorem Cmd.canStop_wrI (l : ILoc) (x : Int) : (Cmd.wrI l x : Cmd F).canStop = false := rfl
@[simp] theorem Cmd.canStop_flag (l : SLoc) : (Cmd.flag l : Cmd F).canStop = false := rfl
@[simp] theorem Cmd.canStop_flagIfInit (l : SLoc) : (Cmd.flagIfInit l : Cmd F).canStop = false := rfl
@[simp] theorem Cmd.canStop_dep (m : Word) (a b : Int) : (Cmd.dep m a b : Cmd F).canStop = false := rfl
@[simp] theorem Cmd.canStop_rd (l : FLoc) : (Cmd.rd l : Cmd F).canStop = false := rfl
@[simp] theorem Cmd.canStop_rdI (l : ILoc) : (Cmd.rdI l : Cmd F).canStop = false := rfl

theorem Tidy_cons {c : Cmd F} {cs : List (Cmd F)} (hc : c.pure = true) (h : Tidy cs) :
    Tidy (c :: cs) := by
  rw [Tidy, if_pos hc]; exact h

theorem Tidy_append_pure {a b : List (Cmd F)} (ha : ∀ d ∈ a, d.pure = true) (hb : Tidy b) :
    Tidy (a ++ b) := by
  induction a with
  | nil => exact hb
  | cons c cs ih =>
      exact Tidy_cons (ha c List.mem_cons_self) (ih fun d hd => ha d (List.mem_cons_of_mem _ hd))

theorem or_imp_forall {α : Type} {p q r : α → Prop} :
    (∀ a, p a ∨ q a → r a) ↔ (∀ a, p a → r a) ∧ ∀ a, q a → r a := by
  constructor
  · exact fun h => ⟨fun a ha => h a (.inl ha), fun a ha => h a (.inr ha)⟩
  · rintro ⟨h1, h2⟩ a (h | h)
    · exact h1 a h
    · exact h2 a h

macro "mkTidy" : tactic => `(tactic| (
  simp only [setCmds, scalarCmds, omegaCmds, ltauCmds, coefLCmds, List.append_assoc, List.cons_append, List.nil_append];
  repeat' first
    | (refine Tidy_cons ?_ ?_; · simp; done)
    | (refine Tidy_append_pure ?_ ?_; · simp; done)
    | (refine Tidy_append_pure ?_ ?_; · simp; grind [Cmd.pure])
    | (apply Tidy_of_noStop; simp [or_imp_forall]; done)
    | (apply Tidy_of_noStop; simp [or_imp_forall]; grind [Cmd.canStop])))

set_option maxHeartbeats 2000000 in
/-- Apart from the leaky calls, every setter checks all its arguments first. -/
theorem set_tidy [Fp F] (s : State F) (op : Op F) (h : Leaky op = false) : Tidy (setCmds s op) := by
  cases op with
  | setOutTaus => simp [Leaky] at h
  | setOutThetas => simp [Leaky] at h
  | setTheta0 => simp [Leaky] at h
  | setCoef1 => simp [Leaky] at h
  | setCoefN => simp [Leaky] at h
  | _ => mkTidy

end Xrtm
