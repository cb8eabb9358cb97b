import Verif.Spec.Redis

/-!
# Facts about the actors of the Redis back end
-/

namespace MCap
open Spec

/-- What a step can be. -/
inductive RMove (s : RSys) : RSys → List REvent → Prop
  | quiet (s' : RSys) : s'.actors = s.actors → s'.borrowed = s.borrowed → s.next ≤ s'.next → RMove s s' []
  | refuse (a : Nat) (m : RMsg) : RMove s s [.refused a m]
  | post (a : Nat) (x : RActor) (m : RMsg) : s.actors[a]? = some x → x.alive = true →
      RMove s (({ s with next := s.next + 1 } : RSys).setActor a { x with inbox := x.inbox ++ [(s.next, m)] }) [.sent a s.next m]
  | die (a : Nat) (x : RActor) (i : Nat) (m : RMsg) (rest : List (Nat × RMsg)) (w : Panic) : s.actors[a]? = some x → x.busy = none →
      x.inbox = (i, m) :: rest → (m.todo = true ∧ w = .explicit ∨ x.conn ∈ s.borrowed ∧ w = .alreadyBorrowed ∧ ¬ m.immediate = true) →
      RMove s (s.setActor a (RSys.RActor.dead x)) [.crashed a i w]
  | now (a : Nat) (x : RActor) (i : Nat) (m : RMsg) (rest : List (Nat × RMsg)) : s.actors[a]? = some x → x.busy = none →
      x.inbox = (i, m) :: rest → m.immediate = true →
      RMove s (s.setActor a { x with inbox := rest }) [.answered a i m (.unit (.ok ()))]
  | start (a : Nat) (x : RActor) (i : Nat) (m : RMsg) (rest : List (Nat × RMsg)) : s.actors[a]? = some x → x.busy = none →
      x.inbox = (i, m) :: rest → m.todo = false → m.immediate = false → x.conn ∉ s.borrowed →
      RMove s (({ s with borrowed := x.conn :: s.borrowed } : RSys).setActor a { x with inbox := rest, busy := some (i, m) })
        [.started a i m.command]
  | fail (a : Nat) (x : RActor) (i : Nat) (m : RMsg) (r : RResult) (w : Panic) : s.actors[a]? = some x → x.busy = some (i, m) →
      (m.answer r = .panic w ∨ m.needsReceiver = true ∧ i ∈ s.gone ∧ w = .unwrapErr) →
      RMove s (({ s with borrowed := s.borrowed.erase x.conn } : RSys).setActor a (RSys.RActor.dead x)) [.crashed a i w]
  | finish (a : Nat) (x : RActor) (i : Nat) (m : RMsg) (r : RResult) (ans : RAnswer) : s.actors[a]? = some x → x.busy = some (i, m) →
      m.answer r = .ret ans →
      RMove s (({ s with borrowed := s.borrowed.erase x.conn } : RSys).setActor a { x with busy := none }) [.answered a i m ans]

theorem rStep_move (s : RSys) (x : RStep) : RMove s (rStep s x).1 (rStep s x).2 := by
  cases x with
  | send a m =>
    simp only [rStep]
    split
    · exact .quiet s rfl rfl (Nat.le_refl _)
    · rename_i x hx
      split
      · rename_i hal; exact .post a x m hx hal
      · exact .refuse a m
  | take a =>
    simp only [rStep]
    split
    · exact .quiet s rfl rfl (Nat.le_refl _)
    · rename_i x hx
      split
      · rename_i i m rest hb hi
        unfold RSys.onTake
        split
        · rename_i ht; exact .die a x i m rest _ hx hb hi (.inl ⟨ht, rfl⟩)
        · rename_i ht
          split
          · rename_i him; exact .now a x i m rest hx hb hi him
          · rename_i him
            split
            · rename_i hc; exact .die a x i m rest _ hx hb hi (.inr ⟨hc, rfl, him⟩)
            · rename_i hc; exact .start a x i m rest hx hb hi (by simpa using ht) (by simpa using him) hc
      · exact .quiet s rfl rfl (Nat.le_refl _)
  | reply a r =>
    simp only [rStep]
    split
    · exact .quiet s rfl rfl (Nat.le_refl _)
    · rename_i x hx
      split
      · rename_i i m hb
        unfold RSys.onReply
        split
        · rename_i w hw; exact .fail a x i m r w hx hb (.inl hw)
        · rename_i ans ha
          split
          · rename_i hg; exact .fail a x i m r _ hx hb (.inr ⟨hg.1, hg.2, rfl⟩)
          · exact .finish a x i m r ans hx hb ha
      · exact .quiet s rfl rfl (Nat.le_refl _)
  | drop i => exact .quiet _ rfl rfl (Nat.le_refl _)

/-- A property of states and logs kept by every step holds of every run. -/
theorem rRun_inv {P : RSys → List REvent → Prop} (hs : ∀ s log s' ev, P s log → RMove s s' ev → P s' (log ++ ev)) (steps : List RStep)
    (s : RSys) (log : List REvent) (h : P s log) : P (rRun s steps).1 (log ++ (rRun s steps).2) := by
  induction steps generalizing s log with
  | nil => simpa [rRun] using h
  | cons x r ih =>
    have := ih _ _ (hs _ _ _ _ h (rStep_move s x))
    rw [List.append_assoc] at this
    exact this

theorem rRun_new_inv {P : RSys → List REvent → Prop} (hs : ∀ s log s' ev, P s log → RMove s s' ev → P s' (log ++ ev)) (steps : List RStep)
    (conns : List Nat) (h : P (RSys.new conns) []) : P (rRun (RSys.new conns) steps).1 (rRun (RSys.new conns) steps).2 := by
  simpa using rRun_inv hs steps (RSys.new conns) [] h

theorem getElem?_setActor (s : RSys) (a b : Nat) (x y : RActor) (h : s.actors[a]? = some x) :
    (s.setActor a y).actors[b]? = if a = b then some y else s.actors[b]? := by
  have hl : a < s.actors.length := (List.getElem?_eq_some_iff.1 h).1
  simp only [RSys.setActor, List.getElem?_set]
  split
  · rename_i he; subst he; simp [hl]
  · rfl

/-! ### Connections -/

/-- Which connections are in use. -/
structure ConnInv (conns : List Nat) (s : RSys) : Prop where
  own : ∀ a : Nat, (s.actors[a]?).map RActor.conn = conns[a]?
  dead : ∀ (a : Nat) (x : RActor), s.actors[a]? = some x → x.alive = false → x.inbox = [] ∧ x.busy = none
  used : ∀ c, c ∈ s.borrowed ↔ ∃ (a : Nat) (x : RActor), s.actors[a]? = some x ∧ x.conn = c ∧ x.busy.isSome = true
  nodup : s.borrowed.Nodup
  one : ∀ (a b : Nat) (x y : RActor), s.actors[a]? = some x → s.actors[b]? = some y → x.conn = y.conn → x.busy.isSome = true → y.busy.isSome = true → a = b

theorem connInv_new (conns : List Nat) : ConnInv conns (RSys.new conns) := by
  have hb : ∀ (a : Nat) (x : RActor), (RSys.new conns).actors[a]? = some x → x.busy = none ∧ x.inbox = [] := by
    intro a x h
    simp only [RSys.new, List.getElem?_map, Option.map_eq_some_iff] at h
    obtain ⟨c, -, rfl⟩ := h
    exact ⟨rfl, rfl⟩
  refine ⟨?_, fun a x h _ => ⟨(hb a x h).2, (hb a x h).1⟩, ?_, List.nodup_nil, ?_⟩
  · intro a
    simp only [RSys.new, List.getElem?_map, Option.map_map]
    cases conns[a]? <;> rfl
  · intro c
    constructor
    · intro h; cases h
    · rintro ⟨a, x, h, -, hx⟩
      rw [(hb a x h).1] at hx
      cases hx
  · intro a b x y h _ _ hx
    rw [(hb a x h).1] at hx
    cases hx

theorem connInv_set {conns : List Nat} {s : RSys} (h : ConnInv conns s) {a : Nat} {x y : RActor} (n : Nat) (hx : s.actors[a]? = some x)
    (hc : y.conn = x.conn) (hb : y.busy.isSome = x.busy.isSome) (hd : y.alive = false → y.inbox = [] ∧ y.busy = none) :
    ConnInv conns (({ s with next := n } : RSys).setActor a y) := by
  have hg : ∀ b, (({ s with next := n } : RSys).setActor a y).actors[b]? = if a = b then some y else s.actors[b]? :=
    fun b => getElem?_setActor _ a b x y hx
  refine ⟨?_, ?_, ?_, h.nodup, ?_⟩
  · intro b
    rw [hg, ← h.own]
    split
    · rename_i e; subst e; simp [hx, hc]
    · rfl
  · intro b z hz
    rw [hg] at hz
    split at hz
    · rename_i e; cases hz; exact hd
    · exact h.dead b z hz
  · intro c
    refine (h.used c).trans ⟨?_, ?_⟩
    · rintro ⟨b, z, hz, rfl, hs⟩
      by_cases e : a = b
      · subst e
        rw [hx] at hz; cases hz
        exact ⟨a, y, by rw [hg, if_pos rfl], hc, by rw [hb]; exact hs⟩
      · exact ⟨b, z, by rw [hg, if_neg e]; exact hz, rfl, hs⟩
    · rintro ⟨b, z, hz, rfl, hs⟩
      rw [hg] at hz
      split at hz
      · rename_i e; cases hz; exact ⟨a, x, hx, hc.symm, by rw [← hb]; exact hs⟩
      · exact ⟨b, z, hz, rfl, hs⟩
  · intro b c z z' hz hz' hcc hs hs'
    rw [hg] at hz hz'
    split at hz <;> split at hz'
    · rename_i e1 e2; rw [← e1, ← e2]
    · rename_i e1 e2; cases hz
      rw [← e1]
      exact h.one a c x z' hx hz' (by rw [← hc]; exact hcc) (by rw [← hb]; exact hs) hs'
    · rename_i e1 e2; cases hz'
      rw [← e2]
      exact h.one b a z x hz hx (by rw [← hc]; exact hcc) hs (by rw [← hb]; exact hs')
    · exact h.one b c z z' hz hz' hcc hs hs'

theorem connInv_start {conns : List Nat} {s : RSys} (h : ConnInv conns s) {a : Nat} {x y : RActor} (hx : s.actors[a]? = some x)
    (hc : y.conn = x.conn) (hb : y.busy.isSome = true) (hal : y.alive = true) (hn : x.conn ∉ s.borrowed) :
    ConnInv conns (({ s with borrowed := x.conn :: s.borrowed } : RSys).setActor a y) := by
  have hg : ∀ b, (({ s with borrowed := x.conn :: s.borrowed } : RSys).setActor a y).actors[b]? = if a = b then some y else s.actors[b]? :=
    fun b => getElem?_setActor _ a b x y hx
  have hfree : ∀ (b : Nat) (z : RActor), s.actors[b]? = some z → z.conn = x.conn → z.busy.isSome = true → False :=
    fun b z hz he hs => hn ((h.used _).2 ⟨b, z, hz, he, hs⟩)
  refine ⟨?_, ?_, ?_, List.nodup_cons.2 ⟨hn, h.nodup⟩, ?_⟩
  · intro b
    rw [hg, ← h.own]
    split
    · rename_i e; subst e; simp [hx, hc]
    · rfl
  · intro b z hz
    rw [hg] at hz
    split at hz
    · cases hz; intro he; rw [hal] at he; cases he
    · exact h.dead b z hz
  · intro c
    constructor
    · intro hm
      rcases List.mem_cons.1 hm with rfl | hm
      · exact ⟨a, y, by rw [hg, if_pos rfl], hc, hb⟩
      · obtain ⟨b, z, hz, rfl, hs⟩ := (h.used c).1 hm
        have e : a ≠ b := by
          rintro rfl
          rw [hx] at hz; cases hz
          exact hn hm
        exact ⟨b, z, by rw [hg, if_neg e]; exact hz, rfl, hs⟩
    · rintro ⟨b, z, hz, rfl, hs⟩
      rw [hg] at hz
      split at hz
      · cases hz; rw [hc]; exact List.mem_cons_self
      · exact List.mem_cons_of_mem _ ((h.used _).2 ⟨b, z, hz, rfl, hs⟩)
  · intro b c z z' hz hz' hcc hs hs'
    rw [hg] at hz hz'
    split at hz <;> split at hz'
    · rename_i e1 e2; rw [← e1, ← e2]
    · cases hz; exact (hfree c z' hz' (by rw [← hcc, hc]) hs').elim
    · cases hz'; exact (hfree b z hz (by rw [hcc, hc]) hs).elim
    · exact h.one b c z z' hz hz' hcc hs hs'

theorem connInv_end {conns : List Nat} {s : RSys} (h : ConnInv conns s) {a : Nat} {x y : RActor} (hx : s.actors[a]? = some x)
    (hxb : x.busy.isSome = true) (hc : y.conn = x.conn) (hb : y.busy = none) (hd : y.alive = false → y.inbox = []) :
    ConnInv conns (({ s with borrowed := s.borrowed.erase x.conn } : RSys).setActor a y) := by
  have hg : ∀ b, (({ s with borrowed := s.borrowed.erase x.conn } : RSys).setActor a y).actors[b]? = if a = b then some y else s.actors[b]? :=
    fun b => getElem?_setActor _ a b x y hx
  refine ⟨?_, ?_, ?_, h.nodup.erase _, ?_⟩
  · intro b
    rw [hg, ← h.own]
    split
    · rename_i e; subst e; simp [hx, hc]
    · rfl
  · intro b z hz
    rw [hg] at hz
    split at hz
    · cases hz; intro he; exact ⟨hd he, hb⟩
    · exact h.dead b z hz
  · intro c
    show c ∈ s.borrowed.erase x.conn ↔ _
    rw [h.nodup.mem_erase_iff]
    constructor
    · rintro ⟨hne, hm⟩
      obtain ⟨b, z, hz, rfl, hs⟩ := (h.used c).1 hm
      have e : a ≠ b := by
        rintro rfl
        rw [hx] at hz; cases hz
        exact hne rfl
      exact ⟨b, z, by rw [hg, if_neg e]; exact hz, rfl, hs⟩
    · rintro ⟨b, z, hz, rfl, hs⟩
      rw [hg] at hz
      split at hz
      · cases hz; rw [hb] at hs; cases hs
      · rename_i e
        refine ⟨fun hcc => e (h.one b a z x hz hx hcc hs hxb).symm, (h.used _).2 ⟨b, z, hz, rfl, hs⟩⟩
  · intro b c z z' hz hz' hcc hs hs'
    rw [hg] at hz hz'
    split at hz
    · cases hz; rw [hb] at hs; cases hs
    · split at hz'
      · cases hz'; rw [hb] at hs'; cases hs'
      · exact h.one b c z z' hz hz' hcc hs hs'

theorem connInv_move {conns : List Nat} {s s' : RSys} {ev : List REvent} (h : ConnInv conns s) (m : RMove s s' ev) : ConnInv conns s' := by
  cases m with
  | quiet s' ha hb hn =>
    exact ⟨by rw [ha]; exact h.own, by rw [ha]; exact h.dead, by rw [ha, hb]; exact h.used, by rw [hb]; exact h.nodup, by rw [ha]; exact h.one⟩
  | refuse => exact h
  | post a x m hx hal => exact connInv_set h _ hx rfl rfl (fun he => by simp [hal] at he)
  | die a x i m rest w hx hb hi hw => exact connInv_set h s.next hx rfl (by simp [RSys.RActor.dead, hb]) (fun _ => ⟨rfl, rfl⟩)
  | now a x i m rest hx hb hi him =>
    refine connInv_set h s.next hx rfl rfl (fun he => ?_)
    have := (h.dead a x hx he).1
    rw [this] at hi; cases hi
  | start a x i m rest hx hb hi ht him hc =>
    refine connInv_start h hx rfl rfl ?_ hc
    cases hal : x.alive with
    | true => rfl
    | false => rw [(h.dead a x hx hal).1] at hi; cases hi
  | fail a x i m r w hx hb hw => exact connInv_end h hx (by rw [hb]; rfl) rfl rfl (fun _ => rfl)
  | finish a x i m r ans hx hb ha =>
    refine connInv_end h hx (by rw [hb]; rfl) rfl rfl (fun he => (h.dead a x hx he).1)

theorem connInv_run (conns : List Nat) (steps : List RStep) : ConnInv conns (rRun (RSys.new conns) steps).1 :=
  rRun_new_inv (P := fun s _ => ConnInv conns s) (fun _ _ _ _ h m => connInv_move h m) steps conns (connInv_new conns)

/-! ### No borrow panics -/

theorem readVisitor_panic {s : String} {w : Panic} (h : readVisitor s = .panic w) : w = .unwrapErr := by
  unfold readVisitor at h
  split at h <;> cases h
  rfl

theorem map_panic {α β : Type} {f : α → β} {e : Exec α} {w : Panic} (h : e.map f = .panic w) : e = .panic w := by
  cases e with
  | ret a => cases h
  | panic w' => cases h; rfl

theorem answer_panic {m : RMsg} {r : RResult} {w : Panic} (h : m.answer r = .panic w) : w = .explicit ∨ w = .unwrapErr := by
  have hunit : RedisClient.unitReply r ≠ .panic w := by unfold RedisClient.unitReply; split <;> intro h <;> cases h
  cases m with
  | cachePow => exact absurd (map_panic h) hunit
  | addSite => exact absurd (map_panic h) hunit
  | rename => exact absurd (map_panic h) hunit
  | removeCaptcha => exact absurd (map_panic h) hunit
  | retrivePow =>
    have h := map_panic h
    unfold RedisClient.getChallenge at h
    split at h
    · cases h
    · exact .inr (readVisitor_panic (map_panic h))
  | addVisitor =>
    have h := map_panic h
    unfold RedisClient.addVisitor at h
    split at h
    · cases h
    · exact .inr (readVisitor_panic (map_panic h))
  | cacheResult =>
    have h := map_panic h
    unfold RedisClient.addToken at h
    split at h <;> cases h
    exact .inl rfl
  | verify =>
    have h := map_panic h
    unfold RedisClient.getToken at h
    split at h <;> cases h
  | deletePow => cases h
  | deleteResult => cases h
  | getInternalData => cases h; exact .inl rfl
  | setInternalData => cases h; exact .inl rfl

theorem no_borrow {conns : List Nat} (hd : conns.Nodup) {s s' : RSys} {ev : List REvent} (h : ConnInv conns s) (m : RMove s s' ev) :
    ∀ a i, .crashed a i .alreadyBorrowed ∉ ev := by
  intro a i hm
  cases m with
  | quiet => cases hm
  | refuse => simp at hm
  | post => simp at hm
  | now => simp at hm
  | start => simp at hm
  | finish => simp at hm
  | die b x j m rest w hx hb hi hw =>
    simp at hm
    obtain ⟨rfl, rfl, rfl⟩ := hm
    rcases hw with ⟨-, hw⟩ | ⟨hc, -⟩
    · cases hw
    · obtain ⟨b, y, hy, he, hs⟩ := (h.used _).1 hc
      have h1 := h.own a
      have h2 := h.own b
      rw [hx] at h1
      rw [hy] at h2
      simp only [Option.map_some] at h1 h2
      rw [he] at h2
      have : a = b := by
        have l1 := (List.getElem?_eq_some_iff.1 h1.symm).1
        exact (List.getElem?_inj l1 hd).1 (h1.symm.trans h2)
      subst this
      rw [hx] at hy
      cases hy
      rw [hb] at hs
      cases hs
  | fail b x j m r w hx hb hw =>
    simp at hm
    obtain ⟨rfl, rfl, rfl⟩ := hm
    rcases hw with hw | ⟨-, -, hw⟩
    · rcases answer_panic hw with h | h <;> cases h
    · cases hw

/-! ### Order -/

theorem sentTo_append (a : Nat) (l l' : List REvent) : sentTo a (l ++ l') = sentTo a l ++ sentTo a l' := by simp [sentTo]
theorem answeredBy_append (a : Nat) (l l' : List REvent) : answeredBy a (l ++ l') = answeredBy a l ++ answeredBy a l' := by simp [answeredBy]

/-- The messages an actor has accepted but not answered. -/
def RActor.waiting (x : RActor) : List Nat := (x.busy.toList ++ x.inbox).map (·.1)

/-- What was answered is what was sent first; a living actor still has the rest. -/
def RedisOrderInv (s : RSys) (log : List REvent) : Prop :=
  ∀ a, ∃ rest, sentTo a log = answeredBy a log ++ rest ∧ ∀ x, s.actors[a]? = some x → x.alive = true → rest = RActor.waiting x

theorem redisOrder_other {s s' : RSys} {log ev : List REvent} {a : Nat} (h : RedisOrderInv s log) (h0 : sentTo a ev = []) (h1 : answeredBy a ev = [])
    (hs : ∀ x, s'.actors[a]? = some x → x.alive = true → ∃ y, s.actors[a]? = some y ∧ y.alive = true ∧ RActor.waiting x = RActor.waiting y) :
    ∃ rest, sentTo a (log ++ ev) = answeredBy a (log ++ ev) ++ rest ∧ ∀ x, s'.actors[a]? = some x → x.alive = true → rest = RActor.waiting x := by
  obtain ⟨rest, hr, hl⟩ := h a
  refine ⟨rest, by rw [sentTo_append, answeredBy_append, h0, h1]; simpa using hr, ?_⟩
  intro x hx hal
  obtain ⟨y, hy, hya, he⟩ := hs x hx hal
  rw [hl y hy hya, he]

theorem redisOrder_move {conns : List Nat} {s s' : RSys} {log ev : List REvent} (hc : ConnInv conns s) (h : RedisOrderInv s log) (m : RMove s s' ev) :
    RedisOrderInv s' (log ++ ev) := by
  intro b
  cases m with
  | quiet s' ha hb hn => exact redisOrder_other h rfl rfl (fun x hx hal => ⟨x, by rw [← ha]; exact hx, hal, rfl⟩)
  | refuse a m => exact redisOrder_other h rfl rfl (fun x hx hal => ⟨x, hx, hal, rfl⟩)
  | post a x m hx hal =>
    have hg := fun b => getElem?_setActor ({ s with next := s.next + 1 } : RSys) a b x { x with inbox := x.inbox ++ [(s.next, m)] } hx
    by_cases e : a = b
    · subst e
      obtain ⟨rest, hr, hl⟩ := h a
      refine ⟨rest ++ [s.next], ?_, ?_⟩
      · rw [sentTo_append, answeredBy_append, hr]; simp [sentTo, answeredBy]
      · intro y hy _
        rw [hg, if_pos rfl] at hy
        cases hy
        rw [hl x hx hal]
        simp [RActor.waiting]
    · exact redisOrder_other h (by simp [sentTo, e]) rfl (fun y hy hya => ⟨y, by rw [hg, if_neg e] at hy; exact hy, hya, rfl⟩)
  | die a x i m rest w hx hb hi hw =>
    have hg := fun b => getElem?_setActor s a b x (RSys.RActor.dead x) hx
    refine redisOrder_other h rfl rfl (fun y hy hya => ?_)
    rw [hg] at hy
    split at hy
    · cases hy; cases hya
    · exact ⟨y, hy, hya, rfl⟩
  | now a x i m rest hx hb hi him =>
    have hg := fun b => getElem?_setActor s a b x { x with inbox := rest } hx
    have hal : x.alive = true := by
      cases hal : x.alive with
      | true => rfl
      | false => rw [(hc.dead a x hx hal).1] at hi; cases hi
    by_cases e : a = b
    · subst e
      obtain ⟨rs, hr, hl⟩ := h a
      have hw := hl x hx hal
      refine ⟨rest.map (·.1), ?_, ?_⟩
      · rw [sentTo_append, answeredBy_append, hr, hw]; simp [sentTo, answeredBy, RActor.waiting, hb, hi]
      · intro y hy _
        rw [hg, if_pos rfl] at hy
        cases hy
        simp [RActor.waiting, hb]
    · exact redisOrder_other h rfl (by simp [answeredBy, e]) (fun y hy hya => ⟨y, by rw [hg, if_neg e] at hy; exact hy, hya, rfl⟩)
  | start a x i m rest hx hb hi ht him hcn =>
    have hg := fun b => getElem?_setActor ({ s with borrowed := x.conn :: s.borrowed } : RSys) a b x { x with inbox := rest, busy := some (i, m) } hx
    refine redisOrder_other h rfl rfl (fun y hy hya => ?_)
    rw [hg] at hy
    split at hy
    · rename_i e
      subst e
      cases hy
      exact ⟨x, hx, hya, by simp [RActor.waiting, hb, hi]⟩
    · exact ⟨y, hy, hya, rfl⟩
  | fail a x i m r w hx hb hw =>
    have hg := fun b => getElem?_setActor ({ s with borrowed := s.borrowed.erase x.conn } : RSys) a b x (RSys.RActor.dead x) hx
    refine redisOrder_other h rfl rfl (fun y hy hya => ?_)
    rw [hg] at hy
    split at hy
    · cases hy; cases hya
    · exact ⟨y, hy, hya, rfl⟩
  | finish a x i m r ans hx hb ha =>
    have hg := fun b => getElem?_setActor ({ s with borrowed := s.borrowed.erase x.conn } : RSys) a b x { x with busy := none } hx
    have hal : x.alive = true := by
      cases hal : x.alive with
      | true => rfl
      | false => rw [(hc.dead a x hx hal).2] at hb; cases hb
    by_cases e : a = b
    · subst e
      obtain ⟨rs, hr, hl⟩ := h a
      have hw := hl x hx hal
      refine ⟨x.inbox.map (·.1), ?_, ?_⟩
      · rw [sentTo_append, answeredBy_append, hr, hw]; simp [sentTo, answeredBy, RActor.waiting, hb]
      · intro y hy _
        rw [hg, if_pos rfl] at hy
        cases hy
        simp [RActor.waiting]
    · exact redisOrder_other h rfl (by simp [answeredBy, e]) (fun y hy hya => ⟨y, by rw [hg, if_neg e] at hy; exact hy, hya, rfl⟩)

theorem redisOrder_run (conns : List Nat) (steps : List RStep) :
    RedisOrderInv (rRun (RSys.new conns) steps).1 (rRun (RSys.new conns) steps).2 :=
  (rRun_new_inv (P := fun s log => ConnInv conns s ∧ RedisOrderInv s log)
    (fun _ _ _ _ h m => ⟨connInv_move h.1 m, redisOrder_move h.1 h.2 m⟩) steps conns
    ⟨connInv_new conns, fun a => ⟨[], rfl, fun x hx _ => by
      simp only [RSys.new, List.getElem?_map, Option.map_eq_some_iff] at hx
      obtain ⟨c, -, rfl⟩ := hx
      rfl⟩⟩).2

theorem noBorrow_run {conns : List Nat} (hd : conns.Nodup) (steps : List RStep) (a i : Nat) :
    .crashed a i .alreadyBorrowed ∉ (rRun (RSys.new conns) steps).2 :=
  (rRun_new_inv (P := fun s log => ConnInv conns s ∧ .crashed a i .alreadyBorrowed ∉ log)
    (fun _ _ _ _ h m => ⟨connInv_move h.1 m, fun hm => (List.mem_append.1 hm).elim h.2 (no_borrow hd h.1 m a i)⟩) steps conns
    ⟨connInv_new conns, by simp⟩).2

/-! ### Commands do not overlap -/

/-- The command started for message `i` of actor `a` is over. -/
def CommandOver (a i : Nat) (e : REvent) : Prop := (∃ m r, e = .answered a i m r) ∨ ∃ w, e = .crashed a i w

/-- Commands under way are known; commands of one connection follow each other; commands are those of messages sent. -/
structure ExclInv (conns : List Nat) (s : RSys) (log : List REvent) : Prop where
  under : ∀ p a i c q, log = p ++ .started a i c :: q → (∃ e ∈ q, CommandOver a i e) ∨ ∃ x m, s.actors[a]? = some x ∧ x.busy = some (i, m)
  excl : ∀ p a i c q b j c' r, log = p ++ .started a i c :: (q ++ .started b j c' :: r) → conns[a]? = conns[b]? → ∃ e ∈ q, CommandOver a i e

theorem snoc_split {α : Type} {log p q : List α} {e x : α} (h : log ++ [e] = p ++ x :: q) :
    (q = [] ∧ log = p ∧ e = x) ∨ ∃ q', q = q' ++ [e] ∧ log = p ++ x :: q' := by
  rcases List.eq_nil_or_concat q with rfl | ⟨q', y, rfl⟩
  · obtain ⟨h1, h2⟩ := List.append_inj' h rfl
    simp at h2
    exact .inl ⟨rfl, h1, h2⟩
  · have h : log ++ [e] = (p ++ x :: q') ++ [y] := by rw [h]; simp
    obtain ⟨h1, h2⟩ := List.append_inj' h rfl
    simp at h2
    subst h2
    exact .inr ⟨q', by simp, h1⟩

theorem exclInv_step {conns : List Nat} {s s' : RSys} {log : List REvent} {e : REvent} (h : ExclInv conns s log)
    (hb : ∀ (a i : Nat) (m : RMsg) (x : RActor), s.actors[a]? = some x → x.busy = some (i, m) → CommandOver a i e ∨ ∃ y, s'.actors[a]? = some y ∧ y.busy = some (i, m))
    (hn : ∀ b j c', e = .started b j c' → (∃ y m, s'.actors[b]? = some y ∧ y.busy = some (j, m)) ∧
      ∀ (a : Nat) (x : RActor), s.actors[a]? = some x → conns[a]? = conns[b]? → x.busy = none) :
    ExclInv conns s' (log ++ [e]) := by
  refine ⟨?_, ?_⟩
  · intro p a i c q hl
    rcases snoc_split hl with ⟨rfl, rfl, he⟩ | ⟨q', rfl, hl'⟩
    · exact .inr (hn a i c he).1
    · rcases h.under p a i c q' hl' with ⟨e', he', ho⟩ | ⟨x, m, hx, hm⟩
      · exact .inl ⟨e', by simp [he'], ho⟩
      · rcases hb a i m x hx hm with ho | ⟨y, hy, hym⟩
        · exact .inl ⟨e, by simp, ho⟩
        · exact .inr ⟨y, m, hy, hym⟩
  · intro p a i c q b j c' r hl hc
    rcases snoc_split (x := REvent.started b j c') (p := p ++ .started a i c :: q) (q := r) (by rw [hl]; simp) with ⟨rfl, hlog, he⟩ | ⟨r', rfl, hlog⟩
    · rcases h.under p a i c q hlog with ho | ⟨x, m, hx, hm⟩
      · exact ho
      · rw [(hn b j c' he).2 a x hx hc] at hm; cases hm
    · exact h.excl p a i c q b j c' r' (by rw [hlog]; simp) hc

theorem exclInv_move {conns : List Nat} {s s' : RSys} {log ev : List REvent} (hc : ConnInv conns s) (h : ExclInv conns s log) (m : RMove s s' ev) :
    ExclInv conns s' (log ++ ev) := by
  cases m with
  | quiet s' ha hb hn =>
    rw [List.append_nil]
    exact ⟨fun p a i c q hl => by rw [ha]; exact h.under p a i c q hl, h.excl⟩
  | refuse a m => exact exclInv_step h (fun a i m x hx hm => .inr ⟨x, hx, hm⟩) (by intro _ _ _ e; cases e)
  | post a x m hx hal =>
    have hg := fun b => getElem?_setActor ({ s with next := s.next + 1 } : RSys) a b x { x with inbox := x.inbox ++ [(s.next, m)] } hx
    refine exclInv_step h (fun b i m' y hy hm => .inr ?_) (by intro _ _ _ e; cases e)
    by_cases e : a = b
    · subst e
      rw [hx] at hy; cases hy
      exact ⟨{ x with inbox := x.inbox ++ [(s.next, m)] }, by rw [hg, if_pos rfl], hm⟩
    · exact ⟨y, by rw [hg, if_neg e]; exact hy, hm⟩
  | die a x i m rest w hx hb hi hw =>
    have hg := fun b => getElem?_setActor s a b x (RSys.RActor.dead x) hx
    refine exclInv_step h (fun b j m' y hy hm => .inr ?_) (by intro _ _ _ e; cases e)
    by_cases e : a = b
    · subst e
      rw [hx] at hy; cases hy
      rw [hb] at hm; cases hm
    · exact ⟨y, by rw [hg, if_neg e]; exact hy, hm⟩
  | now a x i m rest hx hb hi him =>
    have hg := fun b => getElem?_setActor s a b x { x with inbox := rest } hx
    refine exclInv_step h (fun b j m' y hy hm => .inr ?_) (by intro _ _ _ e; cases e)
    by_cases e : a = b
    · subst e
      rw [hx] at hy; cases hy
      rw [hb] at hm; cases hm
    · exact ⟨y, by rw [hg, if_neg e]; exact hy, hm⟩
  | start a x i m rest hx hb hi ht him hcn =>
    have hg := fun b => getElem?_setActor ({ s with borrowed := x.conn :: s.borrowed } : RSys) a b x { x with inbox := rest, busy := some (i, m) } hx
    refine exclInv_step h (fun b j m' y hy hm => .inr ?_) ?_
    · by_cases e : a = b
      · subst e
        rw [hx] at hy; cases hy
        rw [hb] at hm; cases hm
      · exact ⟨y, by rw [hg, if_neg e]; exact hy, hm⟩
    · intro b j c' he
      cases he
      refine ⟨⟨_, m, by rw [hg, if_pos rfl], rfl⟩, ?_⟩
      intro b y hy hcc
      rw [← hc.own, ← hc.own, hx, hy] at hcc
      simp at hcc
      cases hyb : y.busy with
      | none => rfl
      | some z => exact (hcn ((hc.used _).2 ⟨b, y, hy, hcc, by rw [hyb]; rfl⟩)).elim
  | fail a x i m r w hx hb hw =>
    have hg := fun b => getElem?_setActor ({ s with borrowed := s.borrowed.erase x.conn } : RSys) a b x (RSys.RActor.dead x) hx
    refine exclInv_step h (fun b j m' y hy hm => ?_) (by intro _ _ _ e; cases e)
    by_cases e : a = b
    · subst e
      rw [hx] at hy; cases hy
      rw [hb] at hm; cases hm
      exact .inl (.inr ⟨w, rfl⟩)
    · exact .inr ⟨y, by rw [hg, if_neg e]; exact hy, hm⟩
  | finish a x i m r ans hx hb ha =>
    have hg := fun b => getElem?_setActor ({ s with borrowed := s.borrowed.erase x.conn } : RSys) a b x { x with busy := none } hx
    refine exclInv_step h (fun b j m' y hy hm => ?_) (by intro _ _ _ e; cases e)
    by_cases e : a = b
    · subst e
      rw [hx] at hy; cases hy
      rw [hb] at hm; cases hm
      exact .inl (.inl ⟨m, ans, rfl⟩)
    · exact .inr ⟨y, by rw [hg, if_neg e]; exact hy, hm⟩

theorem exclInv_run (conns : List Nat) (steps : List RStep) :
    ExclInv conns (rRun (RSys.new conns) steps).1 (rRun (RSys.new conns) steps).2 :=
  (rRun_new_inv (P := fun s log => ConnInv conns s ∧ ExclInv conns s log)
    (fun _ _ _ _ h m => ⟨connInv_move h.1 m, exclInv_move h.1 h.2 m⟩) steps conns
    ⟨connInv_new conns, ⟨by simp, by simp⟩⟩).2

/-! ### Where answers and crashes come from -/

/-- Why message `i` of actor `a` made the actor panic. -/
def CrashReason (s : RSys) (log : List REvent) (a i : Nat) (m : RMsg) (w : Panic) : Prop :=
  (m.todo = true ∧ w = .explicit) ∨ (w = .alreadyBorrowed ∧ m.immediate = false) ∨
  (.started a i m.command ∈ log ∧ ((∃ r, m.answer r = .panic w) ∨ (m.needsReceiver = true ∧ i ∈ s.gone ∧ w = .unwrapErr)))

/-- Everything stems from a message sent. -/
structure ProvInv (s : RSys) (log : List REvent) : Prop where
  inbox : ∀ (a : Nat) (x : RActor), s.actors[a]? = some x → ∀ i m, (i, m) ∈ x.inbox → .sent a i m ∈ log
  busy : ∀ (a : Nat) (x : RActor), s.actors[a]? = some x → ∀ i m, x.busy = some (i, m) →
    .sent a i m ∈ log ∧ .started a i m.command ∈ log ∧ m.todo = false ∧ m.immediate = false
  answered : ∀ a i m ans, .answered a i m ans ∈ log → .sent a i m ∈ log ∧
    ((m.immediate = true ∧ ans = .unit (.ok ())) ∨ (m.immediate = false ∧ .started a i m.command ∈ log ∧ ∃ r, m.answer r = .ret ans))
  started : ∀ a i c, .started a i c ∈ log → ∃ m, .sent a i m ∈ log ∧ c = m.command ∧ m.immediate = false ∧ m.todo = false
  crashed : ∀ a i w, .crashed a i w ∈ log → ∃ m, .sent a i m ∈ log ∧ CrashReason s log a i m w

theorem crashReason_mono {s s' : RSys} {log ev : List REvent} {a i : Nat} {m : RMsg} {w : Panic} (h : CrashReason s log a i m w)
    (hg : ∀ i ∈ s.gone, i ∈ s'.gone) : CrashReason s' (log ++ ev) a i m w := by
  rcases h with h | h | ⟨h, h' | ⟨h1, h2, h3⟩⟩
  · exact .inl h
  · exact .inr (.inl h)
  · exact .inr (.inr ⟨List.mem_append_left _ h, .inl h'⟩)
  · exact .inr (.inr ⟨List.mem_append_left _ h, .inr ⟨h1, hg i h2, h3⟩⟩)

/-- Steps keep the set of callers gone, or add to it. -/
theorem gone_mono (s : RSys) (x : RStep) : ∀ i ∈ s.gone, i ∈ (rStep s x).1.gone := by
  intro i hi
  cases x with
  | send a m => simp only [rStep]; repeat' split <;> first | exact hi | skip
  | take a =>
    simp only [rStep]
    split
    · exact hi
    · split
      · unfold RSys.onTake; repeat' split <;> first | exact hi | skip
      · exact hi
  | reply a r =>
    simp only [rStep]
    split
    · exact hi
    · split
      · unfold RSys.onReply; repeat' split <;> first | exact hi | skip
      · exact hi
  | drop j => exact List.mem_cons_of_mem _ hi

theorem provInv_step {s s' : RSys} {log : List REvent} {e : REvent} (h : ProvInv s log) (hg : ∀ i ∈ s.gone, i ∈ s'.gone)
    (hi : ∀ (a : Nat) (x : RActor), s'.actors[a]? = some x → ∀ i m, (i, m) ∈ x.inbox → .sent a i m ∈ log ++ [e])
    (hb : ∀ (a : Nat) (x : RActor), s'.actors[a]? = some x → ∀ i m, x.busy = some (i, m) →
      .sent a i m ∈ log ++ [e] ∧ .started a i m.command ∈ log ++ [e] ∧ m.todo = false ∧ m.immediate = false)
    (ha : ∀ a i m ans, e = .answered a i m ans → .sent a i m ∈ log ∧
      ((m.immediate = true ∧ ans = .unit (.ok ())) ∨ (m.immediate = false ∧ .started a i m.command ∈ log ∧ ∃ r, m.answer r = .ret ans)))
    (hs : ∀ a i c, e = .started a i c → ∃ m, .sent a i m ∈ log ∧ c = m.command ∧ m.immediate = false ∧ m.todo = false)
    (hc : ∀ a i w, e = .crashed a i w → ∃ m, .sent a i m ∈ log ∧ CrashReason s' log a i m w) : ProvInv s' (log ++ [e]) := by
  have up : ∀ {x : REvent}, x ∈ log → x ∈ log ++ [e] := fun hx => List.mem_append_left _ hx
  refine ⟨hi, hb, ?_, ?_, ?_⟩
  · intro a i m ans hm
    have : .sent a i m ∈ log ∧ ((m.immediate = true ∧ ans = .unit (.ok ())) ∨
        (m.immediate = false ∧ .started a i m.command ∈ log ∧ ∃ r, m.answer r = .ret ans)) := by
      rcases List.mem_append.1 hm with hm | hm
      · exact h.answered a i m ans hm
      · exact ha a i m ans (List.mem_singleton.1 hm).symm
    exact ⟨up this.1, this.2.imp id (fun ⟨h0, h1, h2⟩ => ⟨h0, up h1, h2⟩)⟩
  · intro a i c hm
    have : ∃ m, .sent a i m ∈ log ∧ c = m.command ∧ m.immediate = false ∧ m.todo = false := by
      rcases List.mem_append.1 hm with hm | hm
      · exact h.started a i c hm
      · exact hs a i c (List.mem_singleton.1 hm).symm
    obtain ⟨m, h1, h2⟩ := this
    exact ⟨m, up h1, h2⟩
  · intro a i w hm
    rcases List.mem_append.1 hm with hm | hm
    · obtain ⟨m, h1, h2⟩ := h.crashed a i w hm
      exact ⟨m, up h1, crashReason_mono h2 hg⟩
    · obtain ⟨m, h1, h2⟩ := hc a i w (List.mem_singleton.1 hm).symm
      exact ⟨m, up h1, crashReason_mono h2 (fun _ hx => hx)⟩

theorem provInv_move {s s' : RSys} {log ev : List REvent} (h : ProvInv s log) (hgone : ∀ i ∈ s.gone, i ∈ s'.gone) (m : RMove s s' ev) :
    ProvInv s' (log ++ ev) := by
  have up : ∀ {x e : REvent}, x ∈ log → x ∈ log ++ [e] := fun hx => List.mem_append_left _ hx
  cases m with
  | quiet s' ha hb hn =>
    rw [List.append_nil]
    refine ⟨by rw [ha]; exact h.inbox, by rw [ha]; exact h.busy, h.answered, h.started, ?_⟩
    intro a i w hm
    obtain ⟨m, h1, h2⟩ := h.crashed a i w hm
    exact ⟨m, h1, by simpa using crashReason_mono (ev := []) h2 hgone⟩
  | refuse a m =>
    exact provInv_step h hgone (fun a x hx i m hm => up (h.inbox a x hx i m hm))
      (fun a x hx i m hm => ⟨up (h.busy a x hx i m hm).1, up (h.busy a x hx i m hm).2.1, (h.busy a x hx i m hm).2.2⟩)
      (by intro _ _ _ _ e; cases e) (by intro _ _ _ e; cases e) (by intro _ _ _ e; cases e)
  | post a x m hx hal =>
    have hg := fun b => getElem?_setActor ({ s with next := s.next + 1 } : RSys) a b x { x with inbox := x.inbox ++ [(s.next, m)] } hx
    refine provInv_step h hgone ?_ ?_ (by intro _ _ _ _ e; cases e) (by intro _ _ _ e; cases e) (by intro _ _ _ e; cases e)
    · intro b y hy i m' hm
      rw [hg] at hy
      split at hy
      · rename_i e; subst e; cases hy
        rcases List.mem_append.1 hm with hm | hm
        · exact up (h.inbox a x hx i m' hm)
        · simp at hm; obtain ⟨rfl, rfl⟩ := hm; simp
      · exact up (h.inbox b y hy i m' hm)
    · intro b y hy i m' hm
      rw [hg] at hy
      split at hy
      · rename_i e; subst e; cases hy
        have := h.busy a x hx i m' hm
        exact ⟨up this.1, up this.2.1, this.2.2⟩
      · have := h.busy b y hy i m' hm
        exact ⟨up this.1, up this.2.1, this.2.2⟩
  | die a x i m rest w hx hb hi hw =>
    have hg := fun b => getElem?_setActor s a b x (RSys.RActor.dead x) hx
    refine provInv_step h hgone ?_ ?_ (by intro _ _ _ _ e; cases e) (by intro _ _ _ e; cases e) ?_
    · intro b y hy i m' hm
      rw [hg] at hy
      split at hy
      · cases hy; cases hm
      · exact up (h.inbox b y hy i m' hm)
    · intro b y hy i m' hm
      rw [hg] at hy
      split at hy
      · cases hy; cases hm
      · have := h.busy b y hy i m' hm
        exact ⟨up this.1, up this.2.1, this.2.2⟩
    · intro b j w' e
      cases e
      refine ⟨m, h.inbox a x hx i m (by rw [hi]; exact List.mem_cons_self), ?_⟩
      rcases hw with hw | hw
      · exact .inl hw
      · cases him : m.immediate with
        | true =>
          exfalso
          exact hw.2.2 him
        | false => exact .inr (.inl ⟨hw.2.1, him⟩)
  | now a x i m rest hx hb hi him =>
    have hg := fun b => getElem?_setActor s a b x { x with inbox := rest } hx
    refine provInv_step h hgone ?_ ?_ ?_ (by intro _ _ _ e; cases e) (by intro _ _ _ e; cases e)
    · intro b y hy j m' hm
      rw [hg] at hy
      split at hy
      · rename_i e; subst e; cases hy
        exact up (h.inbox a x hx j m' (by rw [hi]; exact List.mem_cons_of_mem _ hm))
      · exact up (h.inbox b y hy j m' hm)
    · intro b y hy j m' hm
      rw [hg] at hy
      split at hy
      · rename_i e; subst e; cases hy
        have := h.busy a x hx j m' hm
        exact ⟨up this.1, up this.2.1, this.2.2⟩
      · have := h.busy b y hy j m' hm
        exact ⟨up this.1, up this.2.1, this.2.2⟩
    · intro b j m' ans e
      cases e
      exact ⟨h.inbox a x hx i m (by rw [hi]; exact List.mem_cons_self), .inl ⟨him, rfl⟩⟩
  | start a x i m rest hx hb hi ht him hcn =>
    have hg := fun b => getElem?_setActor ({ s with borrowed := x.conn :: s.borrowed } : RSys) a b x { x with inbox := rest, busy := some (i, m) } hx
    have hin := h.inbox a x hx i m (by rw [hi]; exact List.mem_cons_self)
    refine provInv_step h hgone ?_ ?_ (by intro _ _ _ _ e; cases e) ?_ (by intro _ _ _ e; cases e)
    · intro b y hy j m' hm
      rw [hg] at hy
      split at hy
      · rename_i e; subst e; cases hy
        exact up (h.inbox a x hx j m' (by rw [hi]; exact List.mem_cons_of_mem _ hm))
      · exact up (h.inbox b y hy j m' hm)
    · intro b y hy j m' hm
      rw [hg] at hy
      split at hy
      · rename_i e; subst e; cases hy; cases hm
        exact ⟨up hin, by simp, ht, him⟩
      · have := h.busy b y hy j m' hm
        exact ⟨up this.1, up this.2.1, this.2.2⟩
    · intro b j c e
      cases e
      exact ⟨m, hin, rfl, him, ht⟩
  | fail a x i m r w hx hb hw =>
    have hg := fun b => getElem?_setActor ({ s with borrowed := s.borrowed.erase x.conn } : RSys) a b x (RSys.RActor.dead x) hx
    refine provInv_step h hgone ?_ ?_ (by intro _ _ _ _ e; cases e) (by intro _ _ _ e; cases e) ?_
    · intro b y hy i m' hm
      rw [hg] at hy
      split at hy
      · cases hy; cases hm
      · exact up (h.inbox b y hy i m' hm)
    · intro b y hy i m' hm
      rw [hg] at hy
      split at hy
      · cases hy; cases hm
      · have := h.busy b y hy i m' hm
        exact ⟨up this.1, up this.2.1, this.2.2⟩
    · intro b j w' e
      cases e
      have := h.busy a x hx i m hb
      refine ⟨m, this.1, .inr (.inr ⟨this.2.1, ?_⟩)⟩
      rcases hw with hw | ⟨h1, h2, h3⟩
      · exact .inl ⟨r, hw⟩
      · exact .inr ⟨h1, h2, h3⟩
  | finish a x i m r ans hx hb ha =>
    have hg := fun b => getElem?_setActor ({ s with borrowed := s.borrowed.erase x.conn } : RSys) a b x { x with busy := none } hx
    refine provInv_step h hgone ?_ ?_ ?_ (by intro _ _ _ e; cases e) (by intro _ _ _ e; cases e)
    · intro b y hy j m' hm
      rw [hg] at hy
      split at hy
      · rename_i e; subst e; cases hy; exact up (h.inbox a x hx j m' hm)
      · exact up (h.inbox b y hy j m' hm)
    · intro b y hy j m' hm
      rw [hg] at hy
      split at hy
      · cases hy; cases hm
      · have := h.busy b y hy j m' hm
        exact ⟨up this.1, up this.2.1, this.2.2⟩
    · intro b j m' ans' e
      cases e
      have := h.busy a x hx i m hb
      exact ⟨this.1, .inr ⟨this.2.2.2, this.2.1, r, ha⟩⟩

theorem provInv_run (conns : List Nat) (steps : List RStep) :
    ProvInv (rRun (RSys.new conns) steps).1 (rRun (RSys.new conns) steps).2 := by
  suffices h : ∀ (s : RSys) log, ProvInv s log → ProvInv (rRun s steps).1 (log ++ (rRun s steps).2) by
    have := h (RSys.new conns) [] ⟨?_, ?_, by simp, by simp, by simp⟩
    · simpa using this
    · intro a x hx i m hm
      simp only [RSys.new, List.getElem?_map, Option.map_eq_some_iff] at hx
      obtain ⟨c, -, rfl⟩ := hx
      cases hm
    · intro a x hx i m hm
      simp only [RSys.new, List.getElem?_map, Option.map_eq_some_iff] at hx
      obtain ⟨c, -, rfl⟩ := hx
      cases hm
  induction steps with
  | nil => intro s log h; simpa [rRun] using h
  | cons x r ih =>
    intro s log h
    have := ih _ _ (provInv_move h (gone_mono s x) (rStep_move s x))
    rw [List.append_assoc] at this
    exact this

/-- Callers gone are those whose receivers were dropped. -/
theorem gone_run (conns : List Nat) (steps : List RStep) (i : Nat) (h : i ∈ (rRun (RSys.new conns) steps).1.gone) : .drop i ∈ steps := by
  have step : ∀ (s : RSys) x, i ∈ (rStep s x).1.gone → i ∈ s.gone ∨ x = .drop i := by
    intro s x hi
    cases x with
    | send a m => simp only [rStep] at hi; repeat' split at hi <;> first | exact .inl hi | skip
    | take a =>
      simp only [rStep] at hi
      split at hi
      · exact .inl hi
      · split at hi
        · unfold RSys.onTake at hi; repeat' split at hi <;> first | exact .inl hi | skip
        · exact .inl hi
    | reply a r =>
      simp only [rStep] at hi
      split at hi
      · exact .inl hi
      · split at hi
        · unfold RSys.onReply at hi; repeat' split at hi <;> first | exact .inl hi | skip
        · exact .inl hi
    | drop j =>
      rcases List.mem_cons.1 hi with rfl | hi
      · exact .inr rfl
      · exact .inl hi
  suffices hh : ∀ (s : RSys), i ∈ (rRun s steps).1.gone → i ∈ s.gone ∨ .drop i ∈ steps by
    rcases hh _ h with h | h
    · cases h
    · exact h
  clear h
  induction steps with
  | nil => intro s h; exact .inl h
  | cons x r ih =>
    intro s h
    rcases ih _ h with h | h
    · rcases step s x h with h | h
      · exact .inl h
      · exact .inr (by rw [h]; exact List.mem_cons_self)
    · exact .inr (List.mem_cons_of_mem _ h)

/-! ### Callers who give up -/

/-- The messages sent do not need a receiver. -/
def NoReceiver (steps : List RStep) : Prop := ∀ a m, .send a m ∈ steps → m.needsReceiver = false

/-- Whether the step is a caller dropping the receiver. -/
def RStep.isDrop : RStep → Bool
  | .drop _ => true
  | _ => false

/-- The messages an actor holds do not need a receiver. -/
def NoReceiverIn (s : RSys) : Prop :=
  ∀ (a : Nat) (x : RActor), s.actors[a]? = some x → (∀ i m, (i, m) ∈ x.inbox → m.needsReceiver = false) ∧ ∀ i m, x.busy = some (i, m) → m.needsReceiver = false

theorem noReceiverIn_set {s : RSys} (h : NoReceiverIn s) {a : Nat} {x y : RActor} (hx : s.actors[a]? = some x) (b : List Nat) (n : Nat)
    (hy : (∀ i m, (i, m) ∈ y.inbox → m.needsReceiver = false) ∧ ∀ i m, y.busy = some (i, m) → m.needsReceiver = false) :
    NoReceiverIn (({ s with borrowed := b, next := n } : RSys).setActor a y) := by
  intro c z hz
  rw [getElem?_setActor ({ s with borrowed := b, next := n } : RSys) a c x y hx] at hz
  split at hz
  · cases hz; exact hy
  · exact h c z hz

theorem rStep_gone (s : RSys) (g : List Nat) (x : RStep) (h : NoReceiverIn s) (hx : x.isDrop = false)
    (hm : ∀ a m, x = .send a m → m.needsReceiver = false) :
    ∃ t ev, rStep s x = (t, ev) ∧ rStep { s with gone := g } x = ({ t with gone := g }, ev) ∧ NoReceiverIn t := by
  cases x with
  | send a m =>
    simp only [rStep]
    split
    · exact ⟨_, _, rfl, rfl, h⟩
    · rename_i x hx
      split
      · refine ⟨_, _, rfl, rfl, noReceiverIn_set h hx s.borrowed (s.next + 1) ⟨?_, (h a x hx).2⟩⟩
        intro i m' hi
        rcases List.mem_append.1 hi with hi | hi
        · exact (h a x hx).1 i m' hi
        · simp at hi; rw [hi.2]; exact hm a m rfl
      · exact ⟨_, _, rfl, rfl, h⟩
  | take a =>
    simp only [rStep]
    split
    · exact ⟨_, _, rfl, rfl, h⟩
    · rename_i x hx
      split
      · rename_i i m rest hb hi
        have hr : ∀ j m', (j, m') ∈ rest → m'.needsReceiver = false := fun j m' hj => (h a x hx).1 j m' (by rw [hi]; exact List.mem_cons_of_mem _ hj)
        have hn : m.needsReceiver = false := (h a x hx).1 i m (by rw [hi]; exact List.mem_cons_self)
        unfold RSys.onTake
        split
        · exact ⟨_, _, rfl, rfl, noReceiverIn_set h hx s.borrowed s.next ⟨(by intro _ _ h; cases h), (by intro _ _ h; cases h)⟩⟩
        · split
          · exact ⟨_, _, rfl, rfl, noReceiverIn_set h hx s.borrowed s.next ⟨hr, (h a x hx).2⟩⟩
          · split
            · exact ⟨_, _, rfl, rfl, noReceiverIn_set h hx s.borrowed s.next ⟨(by intro _ _ h; cases h), (by intro _ _ h; cases h)⟩⟩
            · refine ⟨_, _, rfl, rfl, noReceiverIn_set h hx (x.conn :: s.borrowed) s.next ⟨hr, ?_⟩⟩
              intro j m' hj
              cases hj
              exact hn
      · exact ⟨_, _, rfl, rfl, h⟩
  | reply a r =>
    simp only [rStep]
    split
    · exact ⟨_, _, rfl, rfl, h⟩
    · rename_i x hx
      split
      · rename_i i m hb
        have hn : m.needsReceiver = false := (h a x hx).2 i m hb
        unfold RSys.onReply
        split
        · exact ⟨_, _, rfl, rfl, noReceiverIn_set h hx (s.borrowed.erase x.conn) s.next ⟨(by intro _ _ h; cases h), (by intro _ _ h; cases h)⟩⟩
        · simp only [hn, Bool.false_eq_true, false_and, if_false]
          exact ⟨_, _, rfl, rfl, noReceiverIn_set h hx (s.borrowed.erase x.conn) s.next ⟨(h a x hx).1, (by intro _ _ h; cases h)⟩⟩
      · exact ⟨_, _, rfl, rfl, h⟩
  | drop i => cases hx

theorem rRun_gone (steps : List RStep) (s : RSys) (g : List Nat) (h : NoReceiverIn s) (hm : NoReceiver steps) :
    (rRun s steps).2 = (rRun { s with gone := g } (steps.filter fun x => !x.isDrop)).2 := by
  induction steps generalizing s with
  | nil => rfl
  | cons x r ih =>
    have hr : NoReceiver r := fun a m hh => hm a m (List.mem_cons_of_mem _ hh)
    cases hd : x.isDrop with
    | true =>
      cases x with
      | drop i =>
        simp only [List.filter_cons, hd, Bool.not_true, Bool.false_eq_true, if_false]
        have := ih { s with gone := i :: s.gone } h hr
        simpa [rRun, rStep] using this
      | send => cases hd
      | take => cases hd
      | reply => cases hd
    | false =>
      obtain ⟨t, ev, h1, h2, h3⟩ := rStep_gone s g x h hd (fun a m e => hm a m (by rw [e]; exact List.mem_cons_self))
      simp only [List.filter_cons, hd, Bool.not_false, if_true, rRun, h1, h2]
      rw [ih t h3 hr]

/-! ### Why borrows panic -/

/-- After `log`, message `j` of actor `b` has its command under way. -/
def UnderWay (log : List REvent) (b j : Nat) : Prop := ∃ p c q, log = p ++ .started b j c :: q ∧ ∀ e ∈ q, ¬ CommandOver b j e

/-- Busy actors have a command under way; a borrow panics only if another actor with the same connection has one. -/
structure BorrowInv (conns : List Nat) (s : RSys) (log : List REvent) : Prop where
  busy : ∀ (b : Nat) (y : RActor), s.actors[b]? = some y → ∀ j m, y.busy = some (j, m) → UnderWay log b j
  why : ∀ p a i q, log = p ++ .crashed a i .alreadyBorrowed :: q → ∃ b j, b ≠ a ∧ conns[b]? = conns[a]? ∧ UnderWay p b j

theorem underWay_snoc {log : List REvent} {b j : Nat} {e : REvent} (h : UnderWay log b j) (he : ¬ CommandOver b j e) : UnderWay (log ++ [e]) b j := by
  obtain ⟨p, c, q, rfl, hq⟩ := h
  refine ⟨p, c, q ++ [e], by simp, ?_⟩
  intro x hx
  rcases List.mem_append.1 hx with hx | hx
  · exact hq x hx
  · rw [List.mem_singleton.1 hx]; exact he

theorem borrowInv_step {conns : List Nat} {s s' : RSys} {log : List REvent} {e : REvent} (h : BorrowInv conns s log)
    (hb : ∀ (b : Nat) (y : RActor), s'.actors[b]? = some y → ∀ j m, y.busy = some (j, m) →
      (∃ c, e = .started b j c) ∨ (¬ CommandOver b j e ∧ ∃ z, s.actors[b]? = some z ∧ z.busy = some (j, m)))
    (hw : ∀ a i, e = .crashed a i .alreadyBorrowed →
      ∃ (b : Nat) (y : RActor), ∃ j m, b ≠ a ∧ conns[b]? = conns[a]? ∧ s.actors[b]? = some y ∧ y.busy = some (j, m)) :
    BorrowInv conns s' (log ++ [e]) := by
  refine ⟨?_, ?_⟩
  · intro b y hy j m hj
    rcases hb b y hy j m hj with ⟨c, rfl⟩ | ⟨he, z, hz, hzj⟩
    · exact ⟨log, c, [], rfl, by simp⟩
    · exact underWay_snoc (h.busy b z hz j m hzj) he
  · intro p a i q hl
    rcases snoc_split hl with ⟨rfl, rfl, he⟩ | ⟨q', rfl, hl'⟩
    · obtain ⟨b, y, j, m, h1, h2, h3, h4⟩ := hw a i he
      exact ⟨b, j, h1, h2, h.busy b y h3 j m h4⟩
    · exact h.why p a i q' hl'

theorem over_answered {a i b j : Nat} {m : RMsg} {ans : RAnswer} (h : CommandOver b j (.answered a i m ans)) : b = a ∧ j = i := by
  rcases h with ⟨m', r, e⟩ | ⟨w, e⟩ <;> cases e
  exact ⟨rfl, rfl⟩

theorem over_crashed {a i b j : Nat} {w : Panic} (h : CommandOver b j (.crashed a i w)) : b = a ∧ j = i := by
  rcases h with ⟨m', r, e⟩ | ⟨w, e⟩ <;> cases e
  exact ⟨rfl, rfl⟩

theorem borrowInv_move {conns : List Nat} {s s' : RSys} {log ev : List REvent} (hc : ConnInv conns s) (h : BorrowInv conns s log) (m : RMove s s' ev) :
    BorrowInv conns s' (log ++ ev) := by
  cases m with
  | quiet s' ha hb hn =>
    rw [List.append_nil]
    exact ⟨by rw [ha]; exact h.busy, h.why⟩
  | refuse a m =>
    exact borrowInv_step h (fun b y hy j m hj => .inr ⟨(by rintro (⟨_, _, e⟩ | ⟨_, e⟩) <;> cases e), y, hy, hj⟩) (by intro _ _ e; cases e)
  | post a x m hx hal =>
    have hg := fun b => getElem?_setActor ({ s with next := s.next + 1 } : RSys) a b x { x with inbox := x.inbox ++ [(s.next, m)] } hx
    refine borrowInv_step h (fun b y hy j m hj => .inr ⟨(by rintro (⟨_, _, e⟩ | ⟨_, e⟩) <;> cases e), ?_⟩) (by intro _ _ e; cases e)
    rw [hg] at hy
    split at hy
    · rename_i e; subst e; cases hy; exact ⟨x, hx, hj⟩
    · exact ⟨y, hy, hj⟩
  | die a x i m rest w hx hb hi hw =>
    have hg := fun b => getElem?_setActor s a b x (RSys.RActor.dead x) hx
    refine borrowInv_step h (fun b y hy j m' hj => .inr ?_) ?_
    · rw [hg] at hy
      split at hy
      · cases hy; cases hj
      · rename_i e
        exact ⟨fun ho => e (over_crashed ho).1.symm, y, hy, hj⟩
    · intro a' i' e
      cases e
      rcases hw with ⟨-, hw⟩ | ⟨hw, -⟩
      · cases hw
      · obtain ⟨b, y, hy, hyc, hys⟩ := (hc.used _).1 hw
        cases hyb : y.busy with
        | none => rw [hyb] at hys; cases hys
        | some z =>
          refine ⟨b, y, z.1, z.2, ?_, ?_, hy, hyb⟩
          · rintro rfl
            rw [hx] at hy
            cases hy
            rw [hb] at hyb
            cases hyb
          · rw [← hc.own, ← hc.own, hx, hy]
            simp [hyc]
  | now a x i m rest hx hb hi him =>
    have hg := fun b => getElem?_setActor s a b x { x with inbox := rest } hx
    refine borrowInv_step h (fun b y hy j m' hj => .inr ?_) (by intro _ _ e; cases e)
    rw [hg] at hy
    split at hy
    · cases hy; exact (by rw [hb] at hj; cases hj)
    · rename_i e
      exact ⟨fun ho => e (over_answered ho).1.symm, y, hy, hj⟩
  | start a x i m rest hx hb hi ht him hcn =>
    have hg := fun b => getElem?_setActor ({ s with borrowed := x.conn :: s.borrowed } : RSys) a b x { x with inbox := rest, busy := some (i, m) } hx
    refine borrowInv_step h (fun b y hy j m' hj => ?_) (by intro _ _ e; cases e)
    rw [hg] at hy
    split at hy
    · rename_i e; subst e; cases hy; cases hj; exact .inl ⟨_, rfl⟩
    · exact .inr ⟨(by rintro (⟨_, _, e⟩ | ⟨_, e⟩) <;> cases e), y, hy, hj⟩
  | fail a x i m r w hx hb hw =>
    have hg := fun b => getElem?_setActor ({ s with borrowed := s.borrowed.erase x.conn } : RSys) a b x (RSys.RActor.dead x) hx
    refine borrowInv_step h (fun b y hy j m' hj => .inr ?_) ?_
    · rw [hg] at hy
      split at hy
      · cases hy; cases hj
      · rename_i e
        exact ⟨fun ho => e (over_crashed ho).1.symm, y, hy, hj⟩
    · intro a' i' e
      cases e
      rcases hw with hw | ⟨-, -, hw⟩
      · rcases answer_panic hw with h | h <;> cases h
      · cases hw
  | finish a x i m r ans hx hb ha =>
    have hg := fun b => getElem?_setActor ({ s with borrowed := s.borrowed.erase x.conn } : RSys) a b x { x with busy := none } hx
    refine borrowInv_step h (fun b y hy j m' hj => .inr ?_) (by intro _ _ e; cases e)
    rw [hg] at hy
    split at hy
    · cases hy; cases hj
    · rename_i e
      exact ⟨fun ho => e (over_answered ho).1.symm, y, hy, hj⟩

theorem borrowInv_run (conns : List Nat) (steps : List RStep) :
    BorrowInv conns (rRun (RSys.new conns) steps).1 (rRun (RSys.new conns) steps).2 :=
  (rRun_new_inv (P := fun s log => ConnInv conns s ∧ BorrowInv conns s log)
    (fun _ _ _ _ h m => ⟨connInv_move h.1 m, borrowInv_move h.1 h.2 m⟩) steps conns
    ⟨connInv_new conns, ⟨fun b y hy j m hj => (by
      simp only [RSys.new, List.getElem?_map, Option.map_eq_some_iff] at hy
      obtain ⟨c, -, rfl⟩ := hy
      cases hj), by simp⟩⟩).2

end MCap
