import Verif.Lemmas.Send
import Verif.Props.Transcript
import Verif.Props.Bound

/-!
# C68: sending the messages of a round one at a time

`SendRun` (`Verif/Model/Send.lean`) is `run_session` with every message put into the outgoing channel on its own; `Run`
(`Verif/Spec/Send.lean`) is the driver of the other theorems.
-/

namespace Manul

variable {sp : SP} {P : Proto sp}

/-- **C68.**  Sending the messages one at a time makes no difference: when `run_session` waits for messages or has returned a report,
the driver that sends them all at once can be in the same state, having sent the same messages in the same order; and when it has
returned an error of the session, so can that driver. -/
theorem C68_refines {s₀ : Session P} {st : SendState P} {outs : List (MessageOut sp)} (h : SendRun s₀ st outs) :
    (∀ s a, st = .looping s a → Run s₀ (.running s a) (outs.map (·.message))) ∧
    (∀ r, st = .done (.ok r) → Run s₀ (.done (.ok r)) (outs.map (·.message))) ∧
    (∀ e, st = .done (.error (.inner e)) → ∃ outs₀, Run s₀ (.done (.error e)) outs₀ ∧ outs₀ <+: outs.map (·.message)) := by
  have hi := sendRun_inv h
  refine ⟨?_, ?_, ?_⟩
  · rintro s a rfl
    exact hi
  · rintro r rfl
    exact hi.1
  · rintro e rfl
    obtain ⟨⟨cs, rest, h1, h2⟩, -⟩ := hi
    exact ⟨cs, h1, rest, h2.symm⟩

/-- **C68.**  Conversely every run of that driver is one of `run_session`, with the same messages; if making a message fails,
`run_session` may already have sent others. -/
theorem C68_complete {s₀ : Session P} {st : RunState P} {outs₀ : List (Message sp)} (h : Run s₀ st outs₀) :
    ∃ outs rest, SendRun s₀ st.send outs ∧ outs.map (·.message) = outs₀ ++ rest ∧ (rest ≠ [] → ∃ e, st = .done (.error e)) := by
  induction h with
  | start rng =>
    obtain ⟨outs, rest, h1, h2, h3⟩ := send_enter (SendRun.start (s₀ := s₀) rng)
    exact ⟨outs, rest, h1, h2, h3⟩
  | @step st st' outs₀ out e hr hs ih =>
    obtain ⟨outs, rest, h1, h2, h3⟩ := ih
    cases st with
    | done r => simp [step] at hs
    | running s a =>
      have hrest : rest = [] := by
        by_contra hne
        obtain ⟨e, he⟩ := h3 hne
        cases he
      subst hrest
      rw [List.append_nil] at h2
      have quiet : ∀ {st2 : SendState P}, sendStep (.looping s a) (.ev e) = some (st2, []) → out = [] → st2 = st'.send →
          ∃ outs rest, SendRun s₀ st'.send outs ∧ outs.map (·.message) = (outs₀ ++ out) ++ rest ∧
            (rest ≠ [] → ∃ e, st' = .done (.error e)) := by
        rintro st2 k1 rfl rfl
        have := SendRun.step h1 k1
        rw [List.append_nil] at this
        exact ⟨outs, [], this, by simp [h2], fun h => absurd rfl h⟩
      unfold step at hs
      cases hc : a.canFinalize with
      | yes =>
        cases e with
        | tick rng =>
          simp only [hc, Option.some.injEq] at hs
          unfold finishRound at hs
          cases hf : s.finalizeRound (sp.fork rng 0) a with
          | error err =>
            simp only [hf, Prod.mk.injEq] at hs
            obtain ⟨rfl, rfl⟩ := hs
            exact quiet (by simp only [sendStep, hc, hf]; rfl) rfl rfl
          | ok o =>
            cases o with
            | finished r =>
              simp only [hf, Prod.mk.injEq] at hs
              obtain ⟨rfl, rfl⟩ := hs
              exact quiet (by simp only [sendStep, hc, hf]; rfl) rfl rfl
            | anotherRound s' cached =>
              simp only [hf] at hs
              have r1 := SendRun.step (e := .ev (.tick rng)) (st' := .enter s' (sp.fork rng 1) cached) (out := []) h1
                (by simp only [RunState.send, sendStep, hc, hf])
              rw [List.append_nil] at r1
              obtain ⟨outs', rest, k1, k2, k3⟩ := send_enter r1
              rw [hs] at k1 k2 k3
              exact ⟨outs ++ outs', rest, k1, by simp [h2, k2], k3⟩
        | deliver _ _ => simp [hc] at hs
        | cancel => simp [hc] at hs
        | close => simp [hc] at hs
      | never =>
        cases e with
        | tick rng =>
          simp only [hc, Option.some.injEq, Prod.mk.injEq] at hs
          obtain ⟨rfl, rfl⟩ := hs
          exact quiet (by simp only [sendStep, hc]; rfl) rfl rfl
        | deliver _ _ => simp [hc] at hs
        | cancel => simp [hc] at hs
        | close => simp [hc] at hs
      | notYet =>
        cases e with
        | tick rng => simp [hc] at hs
        | deliver x m =>
          simp only [hc] at hs
          cases hd : deliver s a x m with
          | error err =>
            simp only [hd, Option.some.injEq, Prod.mk.injEq] at hs
            obtain ⟨rfl, rfl⟩ := hs
            exact quiet (by simp only [sendStep, hc, hd]; rfl) rfl rfl
          | ok a' =>
            simp only [hd, Option.some.injEq, Prod.mk.injEq] at hs
            obtain ⟨rfl, rfl⟩ := hs
            exact quiet (by simp only [sendStep, hc, hd]; rfl) rfl rfl
        | cancel =>
          simp only [hc, Option.some.injEq, Prod.mk.injEq] at hs
          obtain ⟨rfl, rfl⟩ := hs
          exact quiet (by simp only [sendStep, hc]; rfl) rfl rfl
        | close =>
          simp only [hc, Option.some.injEq, Prod.mk.injEq] at hs
          obtain ⟨rfl, rfl⟩ := hs
          exact quiet (by simp only [sendStep, hc]; rfl) rfl rfl

/-- **C68.**  What has been sent at any time, also when the run has ended with any error: for every round visited, one message for
every destination, in order, and of those of the current round the first few; each of them from this party, in this session, and
bearing the recipient and the valid signatures of its sender for that round. -/
theorem C68_sent (sc : sp.SignCorrect) (srt : sp.SigRoundTrip) {rng : sp.Rng} {sid : Bytes} {signer : sp.Signer} {ep : EntryPoint P}
    {s₀ : Session P} (h0 : Session.new rng sid signer ep = .ok s₀) {st : SendState P} {outs : List (MessageOut sp)}
    (h : SendRun s₀ st outs) :
    (∃ trail s cached k, Visits s₀ trail s cached ∧ (∀ s', st.session? = some s' → s' = s) ∧
      outs.map (fun o => (o.dest, o.message.direct.metadata.roundId)) = trail.flatMap (fun q => q.1.toSend) ++ s.toSend.take k) ∧
    ∀ o ∈ outs, o.sender = sp.verifyingKey signer ∧ o.sessionId = sid ∧ o.message.destination = o.dest ∧
      ∃ r, Authentic o.sender sid r o.message.direct o.message.echo o.message.normal := by
  obtain ⟨hp, hsid, hsig, -, hm⟩ := new_proper h0
  have hall : ∀ o ∈ outs, o.sender = sp.verifyingKey signer ∧ o.sessionId = sid ∧ o.message.destination = o.dest ∧
      ∃ r, Authentic o.sender sid r o.message.direct o.message.echo o.message.normal := by
    induction h with
    | start => simp
    | @step st st' outs out e hr hs ih =>
      intro o ho
      rcases List.mem_append.1 ho with ho | ho
      · exact ih o ho
      · have hi := sendRun_inv hr
        have : ∃ s a cached rng i ds art, st = .offering s a cached rng i ds o art := by
          clear ih hi hr
          unfold sendStep at hs
          split at hs <;> (try split at hs) <;> (try split at hs) <;> simp_all
          all_goals (obtain ⟨rfl, rfl⟩ := hs; simp at ho; subst ho; rfl)
        obtain ⟨s, a, cached, rng, i, ds, art, rfl⟩ := this
        obtain ⟨outs₀, pre, ms, h1, -, -, -, -, h6, h7, h8⟩ := hi
        obtain ⟨trail, hv, -⟩ := h1.visits
        have hvi := visits_inv hp hm hv
        have hau := makeMessage_authentic sc srt hvi.proper h6
        have hd := (makeMessage_ok h6).destination
        refine ⟨?_, ?_, hd, s.transition.id, ?_⟩
        · rw [h8, hvi.proper.me, hvi.signer, hsig]
        · rw [h7, hvi.sessionId, hsid]
        · rw [h8, ← hsid, ← hvi.sessionId]
          exact hau
  refine ⟨?_, hall⟩
  have hk : outs.map (fun o => (o.dest, o.message.direct.metadata.roundId)) = outs.map (fun o => o.message.key) := by
    apply List.map_congr_left
    intro o ho
    unfold Message.key
    rw [(hall o ho).2.2.1]
  have hi := sendRun_inv h
  have fin : ∀ {s k}, SentUpTo s₀ s k outs → (∀ s', st.session? = some s' → s' = s) → ∃ trail s cached k, Visits s₀ trail s cached ∧
      (∀ s', st.session? = some s' → s' = s) ∧
      outs.map (fun o => (o.dest, o.message.direct.metadata.roundId)) = trail.flatMap (fun q => q.1.toSend) ++ s.toSend.take k := by
    rintro s k ⟨trail, cached, h1, h2⟩ h3
    exact ⟨trail, s, cached, k, h1, h3, hk.trans h2⟩
  cases hst : st.session? with
  | some s =>
    obtain ⟨k, hs⟩ := hi.sentUpTo hst
    have := fin hs (fun s' h => by rw [hst] at h; exact (Option.some.inj h).symm)
    simpa only [hst] using this
  | none =>
    have : ∃ s k, SentUpTo s₀ s k outs := by
      cases st with
      | done r =>
        cases r with
        | ok r => exact hi.2
        | error e =>
          cases e with
          | inner e => exact hi.2
          | sendFailed => exact hi
      | _ => simp [SendState.session?] at hst
    obtain ⟨s, k, hs⟩ := this
    have := fin hs (fun s' h => by rw [hst] at h; cases h)
    simpa only [hst] using this

/-- **C68.**  Nobody is sent two messages of the same round. -/
theorem C68_once (sc : sp.SignCorrect) (srt : sp.SigRoundTrip) (hmi : MainIds P) (hac : Acyclic P) {rng : sp.Rng} {sid : Bytes}
    {signer : sp.Signer} {ep : EntryPoint P} {s₀ : Session P} (h0 : Session.new rng sid signer ep = .ok s₀) {st : SendState P}
    {outs : List (MessageOut sp)} (h : SendRun s₀ st outs) :
    (outs.map (fun o => (o.dest, o.message.direct.metadata.roundId))).Nodup := by
  obtain ⟨⟨trail, s, cached, k, hv, -, hk⟩, -⟩ := C68_sent sc srt h0 h
  have hnd := C13_no_repetition hmi hac h0 hv
  rw [hk]
  have one : ∀ s : Session P, s.toSend.Nodup := by
    intro s
    unfold Session.toSend
    exact (BSet.elems_nodup _).map (fun _ _ h => (Prod.mk.inj h).1)
  have rid : ∀ {s : Session P} {p}, p ∈ s.toSend → p.2 = s.transition.id := by
    intro s p hp
    obtain ⟨d, -, rfl⟩ := List.mem_map.1 hp
    rfl
  clear hk hv
  induction trail with
  | nil => simpa using (one s).sublist (List.take_sublist _ _)
  | cons q trail ih =>
    simp only [trailIds, List.map_cons, List.cons_append, List.nodup_cons, List.mem_append, List.mem_map, List.mem_singleton,
      not_or, not_exists, not_and] at hnd
    simp only [List.flatMap_cons, List.append_assoc]
    rw [List.nodup_append]
    refine ⟨one _, ih hnd.2, ?_⟩
    intro x hx y hy hxy
    subst hxy
    have hx' := rid hx
    rcases List.mem_append.1 hy with hy | hy
    · obtain ⟨q', hq', hy⟩ := List.mem_flatMap.1 hy
      exact hnd.1.1 q' hq' ((rid hy).symm.trans hx')
    · exact hnd.1.2 ((rid (List.mem_of_mem_take hy)).symm.trans hx').symm

/-- **C68.**  At the beginning of a round `run_session` waits for nothing but the outgoing channel, and as long as this takes the messages
it gets to waiting for messages, or to an error, in at most `2 d + c + 2` steps for `d` destinations and `c` cached messages. -/
theorem C68_progress (st : SendState P) :
    (∀ s rng cached, st = .enter s rng cached → st.left = 2 * s.destinations.elems.length + cached.length + 2) ∧
    (0 < st.left → (∃ q, sendStep st .go = some q) ∨ ∃ q, sendStep st .accept = some q) ∧
    (∀ e st' out, 0 < st.left → sendStep st e = some (st', out) → st'.left < st.left) ∧
    (st.left = 0 ↔ (∃ s a, st = .looping s a) ∨ ∃ r, st = .done r) := by
  refine ⟨?_, ?_, ?_, ?_⟩
  · rintro s rng cached rfl
    rfl
  · intro h
    cases st with
    | sending s a cached rng i ds =>
      cases ds with
      | nil => exact Or.inl ⟨_, rfl⟩
      | cons d ds =>
        left
        simp only [sendStep]
        split <;> exact ⟨_, rfl⟩
    | offering s a cached rng i ds m art =>
      right
      simp only [sendStep]
      split <;> exact ⟨_, rfl⟩
    | applying s a cached =>
      cases cached with
      | nil => exact Or.inl ⟨_, rfl⟩
      | cons vm cached =>
        left
        simp only [sendStep]
        split <;> exact ⟨_, rfl⟩
    | looping s a => simp [SendState.left] at h
    | done r => simp [SendState.left] at h
  · intro e st' out h hs
    unfold sendStep at hs
    split at hs <;> (try split at hs) <;> (try split at hs) <;> simp_all
    all_goals (obtain ⟨rfl, -⟩ := hs; simp [SendState.left, SendState.fail] at *)
    all_goals omega
  · cases st <;> simp [SendState.left]

/-- **C68.**  If the outgoing channel has been closed, offering a message ends the run with an error; nothing happens after the end. -/
theorem C68_failed {st st' : SendState P} {out : List (MessageOut sp)} (h : sendStep st .refuse = some (st', out)) :
    st' = .done (.error .sendFailed) ∧ out = [] ∧ ∀ e, sendStep st' e = none := by
  cases st with
  | offering s a cached rng i ds m art =>
    simp only [sendStep, Option.some.injEq, Prod.mk.injEq] at h
    obtain ⟨rfl, rfl⟩ := h
    exact ⟨rfl, rfl, fun e => rfl⟩
  | sending s a cached rng i ds => cases ds <;> cases h
  | applying s a cached => cases cached <;> cases h
  | looping s a => cases h
  | done r => cases h

/-- The session of `flood_start` sends its messages to the parties 2 and 3, in this order, and then waits. -/
example : ∃ s₀ a outs, Session.new (sp := natParams) (0 : Nat) [7] (1 : Nat) floodEntry = .ok s₀ ∧
    SendRun s₀ (.looping s₀ a) outs ∧ a.canFinalize = .notYet ∧ outs.map (·.dest) = ([2, 3] : List Nat) := by
  obtain ⟨s₀, a, h1, h2, h3, -, -, -, -, -, -, -, h4⟩ := flood_start
  have hr := Run.start (s₀ := s₀) (0 : Nat)
  obtain ⟨outs, rest, k1, k2, k3⟩ := C68_complete hr
  rw [h2] at k1 k3
  refine ⟨s₀, a, outs, h1, k1, h3, ?_⟩
  have hrest : rest = [] := by
    by_contra hne
    obtain ⟨e, he⟩ := k3 hne
    cases he
  rw [hrest, List.append_nil] at k2
  obtain ⟨-, hall⟩ := C68_sent nat_signCorrect nat_sigRoundTrip h1 k1
  have e1 : outs.map (·.dest) = ((outs.map (·.message)).map Message.key).map (·.1) := by
    rw [List.map_map, List.map_map]
    exact List.map_congr_left fun o ho => (hall o ho).2.2.1.symm
  rw [e1, k2, show (start s₀ (0 : Nat)).2.map Message.key = s₀.toSend from enter_keys h2]
  unfold Session.toSend
  rw [h4]
  rfl

end Manul
