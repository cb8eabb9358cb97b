import Verif.Proofs.MasterMoments
import Verif.Proofs.MasterFresh

/-!
# What a backup taken in between other requests contains
-/

namespace MCap
open Spec

theorem wrun_snoc (p : Profile) (steps : List WStep) (w : World) (s : WStep) :
    wrun p w (steps ++ [s]) = wstep p (wrun p w steps) s := by
  induction steps generalizing w with
  | nil => rfl
  | cons x r ih => exact ih _

theorem atSomeMoment_snoc {p : Profile} {w : World} {u : List WStep} {a : Addr} {P : Counter → Prop} (h : AtSomeMoment p w u a P)
    (s : WStep) : AtSomeMoment p w (u ++ [s]) a P := by
  obtain ⟨x, y, c, e, h1, h2⟩ := h
  exact ⟨x, y ++ [s], c, by rw [e, List.append_assoc], h1, h2⟩

/-- What has been collected after `u`: exactly the counters of `L` already asked that answered. -/
def Collected (p : Profile) (w : World) (L : List (SiteId × (Bool × Addr))) (u : List WStep) (rest : List (SiteId × (Bool × Addr)))
    (acc : AMap SiteId MCaptcha) : Prop :=
  ∃ seen, L = seen ++ rest ∧ acc.keys.Nodup ∧ ∀ id,
    (∀ m, acc.get id = some m → ∃ r a, (id, (r, a)) ∈ seen ∧ AtSomeMoment p w u a (fun c => c.alive = true ∧ c.m = m)) ∧
    (acc.get id = none → ∀ r a, (id, (r, a)) ∈ seen → AtSomeMoment p w u a (fun c => c.alive = false))

theorem Collected.snoc {p : Profile} {w : World} {L : List (SiteId × (Bool × Addr))} {u : List WStep} {rest : List (SiteId × (Bool × Addr))}
    {acc : AMap SiteId MCaptcha} (h : Collected p w L u rest acc) (s : WStep) : Collected p w L (u ++ [s]) rest acc := by
  obtain ⟨seen, h1, h2, h3⟩ := h
  refine ⟨seen, h1, h2, fun id => ⟨fun m hm => ?_, fun hn r a hra => atSomeMoment_snoc ((h3 id).2 hn r a hra) s⟩⟩
  obtain ⟨r, a, hra, h⟩ := (h3 id).1 m hm
  exact ⟨r, a, hra, atSomeMoment_snoc h s⟩

/-- The next entry answered. -/
theorem Collected.got {p : Profile} {w : World} {L : List (SiteId × (Bool × Addr))} {u : List WStep} {rest : List (SiteId × (Bool × Addr))}
    {acc : AMap SiteId MCaptcha} {id : SiteId} {r : Bool} {a : Addr} (h : Collected p w L u ((id, (r, a)) :: rest) acc) (c : Counter)
    (hc : (wrun p w u).counters[a]? = some c) (ha : c.alive = true) : Collected p w L u rest (acc.insert id c.m) := by
  obtain ⟨seen, h1, h2, h3⟩ := h
  refine ⟨seen ++ [(id, (r, a))], by rw [h1]; simp, AMap.nodup_insert _ _ _ h2, fun k => ?_⟩
  rw [AMap.get_insert]
  by_cases e : id = k
  · subst e
    rw [if_pos rfl]
    refine ⟨fun m hm => ?_, fun h => by cases h⟩
    injection hm with hm
    exact ⟨r, a, by simp, u, [], c, (List.append_nil _).symm, hc, ha, hm⟩
  · rw [if_neg e]
    refine ⟨fun m hm => ?_, fun hn r' a' hra => ?_⟩
    · obtain ⟨r', a', hra, h⟩ := (h3 k).1 m hm
      exact ⟨r', a', List.mem_append_left _ hra, h⟩
    · rcases List.mem_append.1 hra with hra | hra
      · exact (h3 k).2 hn r' a' hra
      · simp at hra; exact absurd hra.1.symm e

/-- The next entry did not answer. -/
theorem Collected.missed {p : Profile} {w : World} {L : List (SiteId × (Bool × Addr))} {u : List WStep} {rest : List (SiteId × (Bool × Addr))}
    {acc : AMap SiteId MCaptcha} {id : SiteId} {r : Bool} {a : Addr} (h : Collected p w L u ((id, (r, a)) :: rest) acc)
    (c : Counter) (hc : (wrun p w u).counters[a]? = some c) (ha : c.alive = false) : Collected p w L u rest acc := by
  obtain ⟨seen, h1, h2, h3⟩ := h
  refine ⟨seen ++ [(id, (r, a))], by rw [h1]; simp, h2, fun k => ⟨fun m hm => ?_, fun hn r' a' hra => ?_⟩⟩
  · obtain ⟨r', a', hra, h⟩ := (h3 k).1 m hm
    exact ⟨r', a', List.mem_append_left _ hra, h⟩
  · rcases List.mem_append.1 hra with hra | hra
    · exact (h3 k).2 hn r' a' hra
    · simp at hra
      obtain ⟨-, -, rfl⟩ := hra
      exact ⟨u, [], c, (List.append_nil _).symm, hc, ha⟩

/-- What may have been collected is kept by every step and by every reading of a counter. -/
structure BackupKeeps (p : Profile) (w : World) (C : List WStep → List (SiteId × (Bool × Addr)) → AMap SiteId MCaptcha → Prop) : Prop where
  snoc : ∀ u rest acc s, C u rest acc → C (u ++ [s]) rest acc
  bound : ∀ u id r a rest acc, C u ((id, (r, a)) :: rest) acc → a < (wrun p w u).counters.length
  got : ∀ u id r a rest acc c, C u ((id, (r, a)) :: rest) acc → (wrun p w u).counters[a]? = some c → c.alive = true →
    C u rest (acc.insert id c.m)
  missed : ∀ u id r a rest acc c, C u ((id, (r, a)) :: rest) acc → (wrun p w u).counters[a]? = some c → c.alive = false → C u rest acc

/-- The invariant of a run in which no request has the tag `T`: what collects for the tag has collected what it may. -/
structure BackupInv (T : Nat) (C : List WStep → List (SiteId × (Bool × Addr)) → AMap SiteId MCaptcha → Prop) (u : List WStep) (v : World) :
    Prop where
  fwd : ∀ t ∈ v.tasks, isFwd T t = false
  mine : ∀ t ∈ v.tasks, replyTag t = some T → ∃ rest acc, t = .collect T rest acc ∧ C u rest acc
  said : ∀ d, (T, Answer.data d) ∈ v.answers → C u [] d

theorem BackupInv.same {p : Profile} {w : World} {T : Nat} {C : List WStep → List (SiteId × (Bool × Addr)) → AMap SiteId MCaptcha → Prop}
    (hk : BackupKeeps p w C) {u : List WStep} {v v' : World}
    (h : BackupInv T C u v) (s : WStep) (extra : List Task) (ans : List (Nat × Answer)) (h1 : v'.tasks = v.tasks ++ extra)
    (h2 : v'.answers = v.answers ++ ans) (he : ∀ t ∈ extra, isFwd T t = false ∧ replyTag t ≠ some T) (ha : ∀ e ∈ ans, e.1 ≠ T) :
    BackupInv T C (u ++ [s]) v' := by
  refine ⟨fun t ht => ?_, fun t ht hr => ?_, fun d hd => ?_⟩
  · rw [h1] at ht
    rcases List.mem_append.1 ht with ht | ht
    · exact h.fwd t ht
    · exact (he t ht).1
  · rw [h1] at ht
    rcases List.mem_append.1 ht with ht | ht
    · obtain ⟨rest, acc, e, hc⟩ := h.mine t ht hr
      exact ⟨rest, acc, e, hk.snoc _ _ _ s hc⟩
    · exact absurd hr (he t ht).2
  · rw [h2] at hd
    rcases List.mem_append.1 hd with hd | hd
    · exact hk.snoc _ _ _ s (h.said d hd)
    · exact absurd rfl (ha _ hd)

theorem mem_of_mem_eraseIdx' {ts : List Task} {i : Nat} {t : Task} (h : t ∈ ts.eraseIdx i) : t ∈ ts :=
  (List.eraseIdx_sublist ts i).subset h

/-- Reading a counter: the answer tells whether it runs. -/
theorem sendCounter_data (p : Profile) (w : World) (a : Addr) (c : Counter) (hc : w.counters[a]? = some c) :
    w.sendCounter p a .getInternalData = (w, if c.alive then .data c.m else .mailboxError) := by
  have h1 := (sendCounter_read p w a).2
  have h2 : (w.sendCounter p a .getInternalData).2 = if c.alive then .data c.m else .mailboxError := by
    unfold World.sendCounter
    rw [hc]
    by_cases ha : c.alive = true
    · simp only [Counter.send, ha, if_true, Counter.handleGetInternalData]
    · simp only [Counter.send, ha, if_false, Bool.false_eq_true]
  exact Prod.ext h1 h2

theorem backup_step (p : Profile) (T : Nat) (w : World) {C : List WStep → List (SiteId × (Bool × Addr)) → AMap SiteId MCaptcha → Prop}
    (hk : BackupKeeps p w C) (u : List WStep) (s : WStep) (hs : usesTag T s = false)
    (h : BackupInv T C u (wrun p w u)) : BackupInv T C (u ++ [s]) (wstep p (wrun p w u) s) := by
  generalize hv : wrun p w u = v at *
  cases s with
  | tick d => exact h.same hk _ [] [] (List.append_nil _).symm (List.append_nil _).symm (by simp) (by simp)
  | fire a i =>
    refine h.same hk _ [] [] ?_ ?_ (by simp) (by simp) <;> simp only [wstep] <;> split <;> simp
  | direct t a msg =>
    have hsm := sendCounter_master p v a msg
    refine h.same hk _ [] [(t, .counter (v.sendCounter p a msg).2)] ?_ ?_ (by simp) ?_
    · simp only [wstep, World.answer, hsm.2.1, List.append_nil]
    · simp only [wstep, World.answer, hsm.2.2.2.2.1]
    · intro e he
      simp at he; subst he
      simpa [usesTag] using hs
  | req t msg =>
    have hne : t ≠ T := by simpa [usesTag] using hs
    by_cases hc : v.crashed = true
    · refine h.same hk _ [] [(t, .mailboxError)] ?_ ?_ (by simp) ?_
      · simp only [wstep, hc, if_true, World.answer, List.append_nil]
      · simp only [wstep, hc, if_true, World.answer]
      · intro e he
        simp at he; subst he
        exact hne
    · obtain ⟨extra, ans, h1, -, h3, h4, h5⟩ := handle_eff v t msg
      refine h.same hk _ extra ans ?_ ?_ (fun t' ht' => ⟨?_, fun hr => hne ((h4 t' ht').2 T hr).symm⟩) (fun e he => by rw [h5 e he]; exact hne)
      · simp only [wstep, hc, if_false, Bool.false_eq_true]; exact h1
      · simp only [wstep, hc, if_false, Bool.false_eq_true]; exact h3
      · cases hf : isFwd T t' with
        | false => rfl
        | true => exact absurd ((h4 t' ht').1 T hf).symm hne
  | run i =>
    cases hi : v.tasks[i]? with
    | none =>
      refine h.same hk _ [] [] ?_ ?_ (by simp) (by simp) <;> simp only [wstep, World.runAt, hi, List.append_nil]
    | some t =>
      have hmem : t ∈ v.tasks := List.mem_of_getElem? hi
      have hf := h.fwd t hmem
      by_cases hr : replyTag t = some T
      · obtain ⟨rest, acc, rfl, hcol⟩ := h.mine t hmem hr
        have base : ∀ x ∈ v.tasks.eraseIdx i, isFwd T x = false ∧ (replyTag x = some T →
            ∃ rest acc, x = .collect T rest acc ∧ C (u ++ [.run i]) rest acc) := by
          intro x hx
          have hx' := mem_of_mem_eraseIdx' hx
          refine ⟨h.fwd x hx', fun hxr => ?_⟩
          obtain ⟨rest', acc', e, hc'⟩ := h.mine x hx' hxr
          exact ⟨rest', acc', e, hk.snoc _ _ _ _ hc'⟩
        cases rest with
        | nil =>
          simp only [wstep, World.runAt, hi, World.runTask]
          refine ⟨fun x hx => (base x hx).1, fun x hx hxr => (base x hx).2 hxr, fun d hd => ?_⟩
          simp only [World.answer] at hd
          rcases List.mem_append.1 hd with hd | hd
          · exact hk.snoc _ _ _ _ (h.said d hd)
          · simp at hd; subst hd; exact hk.snoc _ _ _ _ hcol
        | cons e rest =>
          obtain ⟨name, r, a⟩ := e
          have ha : a < v.counters.length := by
            have := hk.bound _ _ _ _ _ _ hcol
            rwa [hv] at this
          have hc : v.counters[a]? = some v.counters[a] := List.getElem?_eq_getElem ha
          have hsd := sendCounter_data p { v with tasks := v.tasks.eraseIdx i } a v.counters[a] hc
          simp only [wstep, World.runAt, hi, World.runTask, hsd]
          have hcv : (wrun p w u).counters[a]? = some v.counters[a] := by rw [hv]; exact hc
          by_cases hal : v.counters[a].alive = true
          · simp only [hal, if_true]
            have := hk.snoc _ _ _ (.run i) (hk.got _ _ _ _ _ _ _ hcol hcv hal)
            refine ⟨fun x hx => ?_, fun x hx hxr => ?_, fun d hd => hk.snoc _ _ _ _ (h.said d hd)⟩
            · rcases List.mem_cons.1 hx with rfl | hx
              · rfl
              · exact (base x hx).1
            · rcases List.mem_cons.1 hx with rfl | hx
              · exact ⟨_, _, rfl, this⟩
              · exact (base x hx).2 hxr
          · simp only [hal, if_false, Bool.false_eq_true]
            have := hk.snoc _ _ _ (.run i) (hk.missed _ _ _ _ _ _ _ hcol hcv (by simpa using hal))
            refine ⟨fun x hx => ?_, fun x hx hxr => ?_, fun d hd => hk.snoc _ _ _ _ (h.said d hd)⟩
            · rcases List.mem_cons.1 hx with rfl | hx
              · rfl
              · exact (base x hx).1
            · rcases List.mem_cons.1 hx with rfl | hx
              · exact ⟨_, _, rfl, this⟩
              · exact (base x hx).2 hxr
      · obtain ⟨cr, extra, ans, he⟩ := runTask_eff p { v with tasks := v.tasks.eraseIdx i } t
        have h1 := he.tasks; have h3 := he.answers; have h4 := he.quiet; have h5 := he.from_
        simp only [wstep, World.runAt, hi]
        generalize ({ v with tasks := v.tasks.eraseIdx i } : World).runTask p t = q at h1 h3 h4 h5
        obtain ⟨w', o⟩ := q
        simp only at h1 h3 h4 h5
        have hans : ∀ d, (T, Answer.data d) ∉ ans := by
          intro d hd
          rcases h5 _ hd with h | ⟨a, rfl, -⟩
          · exact hr h
          · simp [isFwd] at hf
        have quiet : ∀ x ∈ extra ++ o.toList, isFwd T x = false ∧ replyTag x ≠ some T := fun x hx =>
          ⟨(h4 x hx).1 T, fun hxr => hr ((h4 x hx).2 T hxr)⟩
        have main : ∀ x, x ∈ w'.tasks ∨ x ∈ o.toList → isFwd T x = false ∧ (replyTag x = some T →
            ∃ rest acc, x = .collect T rest acc ∧ C (u ++ [.run i]) rest acc) := by
          intro x hx
          have old : x ∈ v.tasks.eraseIdx i → isFwd T x = false ∧ (replyTag x = some T →
              ∃ rest acc, x = .collect T rest acc ∧ C (u ++ [.run i]) rest acc) := by
            intro hx
            have hx' := mem_of_mem_eraseIdx' hx
            refine ⟨h.fwd x hx', fun hxr => ?_⟩
            obtain ⟨rest', acc', e, hc'⟩ := h.mine x hx' hxr
            exact ⟨rest', acc', e, hk.snoc _ _ _ _ hc'⟩
          have new : x ∈ extra ++ o.toList → isFwd T x = false ∧ (replyTag x = some T →
              ∃ rest acc, x = .collect T rest acc ∧ C (u ++ [.run i]) rest acc) :=
            fun hx => ⟨(quiet x hx).1, fun hxr => absurd hxr (quiet x hx).2⟩
          rcases hx with hx | hx
          · rw [h1] at hx
            split at hx
            · cases hx
            · rcases List.mem_append.1 hx with hx | hx
              · exact old hx
              · exact new (List.mem_append_left _ hx)
          · exact new (List.mem_append_right _ hx)
        have hsaid : ∀ d, (T, Answer.data d) ∈ w'.answers → C (u ++ [.run i]) [] d := by
          intro d hd
          rw [h3] at hd
          rcases List.mem_append.1 hd with hd | hd
          · exact hk.snoc _ _ _ _ (h.said d hd)
          · exact absurd hd (hans d)
        cases o with
        | none => exact ⟨fun x hx => (main x (.inl hx)).1, fun x hx hxr => (main x (.inl hx)).2 hxr, hsaid⟩
        | some t' =>
          refine ⟨fun x hx => ?_, fun x hx hxr => ?_, hsaid⟩
          · rcases List.mem_cons.1 hx with rfl | hx
            · exact (main x (.inr (by simp))).1
            · exact (main x (.inl hx)).1
          · rcases List.mem_cons.1 hx with rfl | hx
            · exact (main x (.inr (by simp))).2 hxr
            · exact (main x (.inl hx)).2 hxr

theorem backup_run (p : Profile) (T : Nat) (w : World) {C : List WStep → List (SiteId × (Bool × Addr)) → AMap SiteId MCaptcha → Prop}
    (hk : BackupKeeps p w C) (h0 : BackupInv T C [] w) (more : List WStep) (hs : ∀ s ∈ more, usesTag T s = false) :
    BackupInv T C more (wrun p w more) := by
  have key : ∀ (more u : List WStep), (∀ s ∈ more, usesTag T s = false) → BackupInv T C u (wrun p w u) →
      BackupInv T C (u ++ more) (wrun p w (u ++ more)) := by
    intro more
    induction more with
    | nil => intro u _ h; simpa using h
    | cons s r ih =>
      intro u hs h
      have := backup_step p T w hk u s (hs s List.mem_cons_self) h
      rw [← wrun_snoc] at this
      have := ih (u ++ [s]) (fun x hx => hs x (List.mem_cons_of_mem _ hx)) this
      simpa using this
  exact key more [] hs h0

/-- Before the request nobody has anything to do with the tag. -/
theorem backup_before (p : Profile) (T now gc : Nat) (steps : List WStep) (hs : ∀ s ∈ steps, usesTag T s = false) :
    let w := wrun p (World.init now gc) steps
    (∀ t ∈ w.tasks, isFwd T t = false ∧ replyTag t ≠ some T) ∧ ∀ d, (T, Answer.data d) ∉ w.answers := by
  have hk : BackupKeeps p (World.init now gc) (fun _ _ _ => False) :=
    ⟨fun _ _ _ _ h => h, fun _ _ _ _ _ _ h => h.elim, fun _ _ _ _ _ _ _ h => h.elim, fun _ _ _ _ _ _ _ h => h.elim⟩
  have h0 : BackupInv T (fun _ _ _ => False) [] (World.init now gc) := by
    refine ⟨fun t ht => ?_, fun t ht hr => ?_, fun d hd => by cases hd⟩
    · simp [World.init] at ht; subst ht; rfl
    · simp [World.init] at ht; subst ht; cases hr
  have h := backup_run p T _ hk h0 steps hs
  refine ⟨fun t ht => ⟨h.fwd t ht, fun hr => ?_⟩, fun d hd => h.said d hd⟩
  obtain ⟨_, _, _, hf⟩ := h.mine t ht hr
  exact hf

/-- A backup asked for in between other requests. -/
theorem backup_collected (p : Profile) (T now gc : Nat) (pre post : List WStep) (hs : ∀ s ∈ pre ++ post, usesTag T s = false)
    (hc : (wrun p (World.init now gc) pre).crashed = false) (data : AMap SiteId MCaptcha)
    (ha : (T, Answer.data data) ∈ (wrun p (wrun p (World.init now gc) pre) (.req T .getInternalData :: post)).answers) :
    Collected p (wstep p (wrun p (World.init now gc) pre) (.req T .getInternalData))
      (iterByKey (wrun p (World.init now gc) pre).master.sites) post [] data := by
  obtain ⟨hb1, hb2⟩ := backup_before p T now gc pre (fun s h => hs s (List.mem_append_left _ h))
  have hwf := wf_wrun p pre _ (wf_init now gc)
  generalize hw : wrun p (World.init now gc) pre = w at *
  have hbelow := below_snapshot hwf
  have e1 : wstep p w (.req T .getInternalData) = w.spawn (.collect T (iterByKey w.master.sites) []) := by
    simp only [wstep, hc, if_false, Bool.false_eq_true]; rfl
  have hk : BackupKeeps p (wstep p w (.req T .getInternalData))
      (Collected p (wstep p w (.req T .getInternalData)) (iterByKey w.master.sites)) := by
    refine ⟨fun _ _ _ s h => h.snoc s, ?_, fun _ _ _ _ _ _ c h h1 h2 => h.got c h1 h2, fun _ _ _ _ _ _ c h h1 h2 => h.missed c h1 h2⟩
    rintro u id r a rest acc ⟨seen, e, -⟩
    have h1 := hbelow (id, (r, a)) (by rw [e]; simp)
    have h2 := counters_len_wrun p u (wstep p w (.req T .getInternalData))
    rw [e1] at h2 ⊢
    exact Nat.lt_of_lt_of_le h1 h2
  have h0 : BackupInv T (Collected p (wstep p w (.req T .getInternalData)) (iterByKey w.master.sites)) []
      (wstep p w (.req T .getInternalData)) := by
    refine ⟨fun t ht => ?_, fun t ht hr => ?_, fun d hd => ?_⟩
    · rw [e1] at ht
      rcases List.mem_append.1 ht with ht | ht
      · exact (hb1 t ht).1
      · simp at ht; subst ht; rfl
    · rw [e1] at ht
      rcases List.mem_append.1 ht with ht | ht
      · exact absurd hr (hb1 t ht).2
      · simp at ht; subst ht
        exact ⟨_, _, rfl, [], rfl, by simp [AMap.keys], fun id => ⟨fun m hm => (by cases hm), fun _ r a hra => by cases hra⟩⟩
    · rw [e1] at hd
      exact absurd hd (hb2 d)
  exact (backup_run p T _ hk h0 post (fun s h => hs s (List.mem_append_right _ h))).said data ha

end MCap
