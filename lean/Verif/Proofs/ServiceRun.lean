import Verif.Spec.Service
import Verif.Proofs.MasterIso
import Verif.Proofs.SystemInv

/-!
# Runs of a service are runs of its parts
-/

namespace MCap
open Spec

theorem vRun_append (lib : PowLib) (p : Profile) (v : Service) (a b : List VStep) :
    vRun lib p v (a ++ b) = ((vRun lib p (vRun lib p v a).1 b).1, (vRun lib p v a).2 ++ (vRun lib p (vRun lib p v a).1 b).2) := by
  induction a generalizing v with
  | nil => rfl
  | cons x r ih => simp only [List.cons_append, vRun, ih, List.append_assoc]

theorem vRun_inv {lib : PowLib} {p : Profile} {P : Service → List VEvent → Prop}
    (hs : ∀ v log x, P v log → P (vStep lib p v x).1 (log ++ (vStep lib p v x).2)) (steps : List VStep) (v : Service)
    (log : List VEvent) (h : P v log) : P (vRun lib p v steps).1 (log ++ (vRun lib p v steps).2) := by
  induction steps generalizing v log with
  | nil => simpa [vRun] using h
  | cons x r ih =>
    have := ih _ _ (hs v log x h)
    rwa [List.append_assoc] at this

theorem apiLog_append (a b : List VEvent) : apiLog (a ++ b) = apiLog a ++ apiLog b := by simp [apiLog]
theorem masterMsgs_append (a b : List VEvent) : masterMsgs (a ++ b) = masterMsgs a ++ masterMsgs b := by simp [masterMsgs]
theorem registrations_append (a b : List VEvent) : registrations (a ++ b) = registrations a ++ registrations b := by
  simp [registrations, masterMsgs_append]
theorem countedAt_append (x : Addr) (a b : List VEvent) : countedAt x (a ++ b) = countedAt x a ++ countedAt x b := by simp [countedAt]
theorem countedFor_append (i : Nat) (a b : List VEvent) : countedFor i (a ++ b) = countedFor i a + countedFor i b := by simp [countedFor]

theorem apiLog_api (ev : List SEvent) : apiLog (ev.map .api) = ev := by
  induction ev with
  | nil => rfl
  | cons e r ih => simpa [apiLog] using ih

theorem masterMsgs_api (ev : List SEvent) : masterMsgs (ev.map .api) = [] := by
  simp [masterMsgs, List.filterMap_eq_nil_iff]

theorem mem_apiLog {log : List VEvent} {e : SEvent} : e ∈ apiLog log ↔ .api e ∈ log := by
  simp only [apiLog, List.mem_filterMap]
  constructor
  · rintro ⟨x, hx, he⟩
    cases x <;> simp at he
    subst he
    exact hx
  · intro h
    exact ⟨_, h, rfl⟩

theorem apiLog_world (p : Profile) (w : World) (st : WStep) : apiLog (Service.worldEvents p w st) = [] := by
  simp only [Service.worldEvents, apiLog_append]
  cases Service.toCounter w st <;> cases Service.toMaster w st <;> rfl

theorem masterMsgs_world (p : Profile) (w : World) (st : WStep) : masterMsgs (Service.worldEvents p w st) = handled w st := by
  have e : masterMsgs (Service.worldEvents p w st) = (Service.toMaster w st).toList := by
    simp only [Service.worldEvents, masterMsgs_append]
    cases Service.toCounter w st <;> cases Service.toMaster w st <;> rfl
  rw [e]
  cases st with
  | req t m => simp only [Service.toMaster, handled]; split <;> rfl
  | run i =>
    simp only [Service.toMaster, handled]
    cases w.tasks[i]? with
    | none => rfl
    | some t =>
      cases t <;> simp only [Option.toList_none, Option.toList_some]
      split <;> rfl
  | direct t a m => rfl
  | tick d => rfl
  | fire a i => rfl

/-- A step of a service is at most one step of the system. -/
theorem vStep_sys (lib : PowLib) (p : Profile) (v : Service) (x : VStep) :
    ((vStep lib p v x).1.sys = v.sys ∧ apiLog (vStep lib p v x).2 = []) ∨
      ∃ y, (vStep lib p v x).1.sys = (sysStep lib p v.sys y).1 ∧ apiLog (vStep lib p v x).2 = (sysStep lib p v.sys y).2 := by
  unfold vStep
  split
  · exact .inl ⟨rfl, rfl⟩
  cases x with
  | sys s =>
    simp only
    split
    · exact .inr ⟨s, rfl, apiLog_api _⟩
    · exact .inl ⟨rfl, rfl⟩
  | world s =>
    simp only
    split
    · exact .inl ⟨rfl, apiLog_world _ _ _⟩
    · exact .inl ⟨rfl, rfl⟩
  | ask i =>
    left
    simp only
    repeat' split
    all_goals exact ⟨rfl, rfl⟩
  | hear i g =>
    simp only
    split
    · exact .inr ⟨_, rfl, apiLog_api _⟩
    · exact .inl ⟨rfl, rfl⟩
  | tick d =>
    right
    refine ⟨.tick d, rfl, ?_⟩
    show [] = (sysStep lib p v.sys (.tick d)).2
    unfold sysStep
    split <;> rfl

/-- A step of a service is at most one step of the master. -/
theorem vStep_world (lib : PowLib) (p : Profile) (v : Service) (x : VStep) :
    ((vStep lib p v x).1.world = v.world ∧ masterMsgs (vStep lib p v x).2 = []) ∨
      ∃ y, (vStep lib p v x).1.world = wstep p v.world y ∧ masterMsgs (vStep lib p v x).2 = handled v.world y := by
  unfold vStep
  split
  · exact .inl ⟨rfl, rfl⟩
  cases x with
  | sys s =>
    simp only
    split
    · exact .inl ⟨rfl, masterMsgs_api _⟩
    · exact .inl ⟨rfl, rfl⟩
  | world s =>
    simp only
    split
    · exact .inr ⟨_, rfl, masterMsgs_world _ _ _⟩
    · exact .inl ⟨rfl, rfl⟩
  | ask i =>
    simp only
    split
    · split
      · split
        · exact .inl ⟨rfl, rfl⟩
        · rename_i id _ _ _
          refine .inr ⟨.req (2 * i) (.addVisitor id), rfl, ?_⟩
          simp only [handled]
          split <;> rfl
      · exact .inl ⟨rfl, rfl⟩
    · exact .inl ⟨rfl, rfl⟩
  | hear i g =>
    simp only
    split
    · exact .inl ⟨rfl, masterMsgs_api _⟩
    · exact .inl ⟨rfl, rfl⟩
  | tick d => exact .inr ⟨.tick d, rfl, rfl⟩

theorem wrun_append (p : Profile) (w : World) (a b : List WStep) : wrun p w (a ++ b) = wrun p (wrun p w a) b := by
  induction a generalizing w with
  | nil => rfl
  | cons x r ih => exact ih _

theorem handledAll_append (p : Profile) (w : World) (a b : List WStep) :
    handledAll p w (a ++ b) = handledAll p w a ++ handledAll p (wrun p w a) b := by
  induction a generalizing w with
  | nil => rfl
  | cons x r ih => simp only [List.cons_append, handledAll, ih, List.append_assoc, wrun]

/-- The parts of a service are in states they reach by themselves, and the log is theirs. -/
def VReached (lib : PowLib) (p : Profile) (n ql gc now : Nat) (v : Service) (log : List VEvent) : Prop :=
  (∃ ss, sysRun lib p (Sys.new n ql now) ss = (v.sys, apiLog log)) ∧
  ∃ ws, wrun p (World.init now gc) ws = v.world ∧ handledAll p (World.init now gc) ws = masterMsgs log

theorem vreached_step {lib : PowLib} {p : Profile} {n ql gc now : Nat} (v : Service) (log : List VEvent) (x : VStep)
    (h : VReached lib p n ql gc now v log) : VReached lib p n ql gc now (vStep lib p v x).1 (log ++ (vStep lib p v x).2) := by
  obtain ⟨⟨ss, hs⟩, ws, hw, hm⟩ := h
  constructor
  · rcases vStep_sys lib p v x with ⟨h1, h2⟩ | ⟨y, h1, h2⟩
    · exact ⟨ss, by rw [apiLog_append, h2, h1, List.append_nil, hs]⟩
    · refine ⟨ss ++ [y], ?_⟩
      rw [sysRun_append, apiLog_append, h1, h2, hs]
      simp only [sysRun, List.append_nil]
  · rcases vStep_world lib p v x with ⟨h1, h2⟩ | ⟨y, h1, h2⟩
    · exact ⟨ws, by rw [h1, hw], by rw [masterMsgs_append, h2, List.append_nil, hm]⟩
    · refine ⟨ws ++ [y], ?_, ?_⟩
      · rw [wrun_append, hw, h1]; rfl
      · rw [handledAll_append, masterMsgs_append, hw, hm, h2]
        simp only [handledAll, List.append_nil]

theorem vreached_run (lib : PowLib) (p : Profile) (n ql gc now : Nat) (steps : List VStep) :
    VReached lib p n ql gc now (vRun lib p (Service.new n ql gc now) steps).1 (vRun lib p (Service.new n ql gc now) steps).2 := by
  have h := vRun_inv (lib := lib) (p := p) (P := VReached lib p n ql gc now) vreached_step steps (Service.new n ql gc now) []
    ⟨⟨[], rfl⟩, [], rfl, rfl⟩
  simpa using h

end MCap
