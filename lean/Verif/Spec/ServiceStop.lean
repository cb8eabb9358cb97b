import Verif.Spec.Service

/-!
# Specification: why a counter is gone
-/

namespace MCap.Spec

/-- Counter `a` has handled a `Stop`. -/
def StoppedIn (a : Addr) (log : List VEvent) : Prop := ∃ who t, .counter who a t .stop .done ∈ log

/-- Counter `a` was asked for the number of its visitors and had none. -/
def SeenIdle (log : List VEvent) (a : Addr) : Prop := ∃ t, .counter none a t .getCurrentVisitorCount (.count 0) ∈ log

/-- The master was told to remove a site which at that moment had counter `a`. -/
def RemovedIn (log : List VEvent) (a : Addr) : Prop :=
  ∃ x id y, log = x ++ .master (.removeCaptcha id) :: y ∧ regAfter (fun _ => none) 0 (masterMsgs x) id = some a

/-- Every captcha counter `a` was given, when it was registered or by a restore, is usable and has at most `n` visitors, and the visitors it has
counted since leave room for one more in a `u32`. -/
def Sound (a : Addr) (n : Nat) (log : List VEvent) : Prop :=
  (∀ m, Configured log a m → MValid m ∧ m.visitors ≤ n) ∧ n + (countedAt a log).length + 1 < 2 ^ 32

/-- Nobody outside the master stops a counter. -/
def OnlyMasterStops (steps : List VStep) : Prop := ∀ t a, .world (.direct t a .stop) ∉ steps

end MCap.Spec
