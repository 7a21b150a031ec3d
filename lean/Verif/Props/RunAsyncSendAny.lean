import Verif.Model.RunAsyncSend
import Verif.Lemmas.RunAsyncSendNet
import Verif.Props.RunAsyncAny

/-!
# `run_async` of arbitrary parties, one message at a time (C87)

As in `Props/RunAsyncAny`, nothing is assumed of the protocol or of the parties.  A party whose message cannot be made has sent those
before it; such a party is not in the network of `C87_refines`, where all messages of a round are made at once.
-/

namespace Manul

variable {sp : SP} {P : Proto sp} {g : Group P}

/-- A message has been sent, and has not reached the channel of its destination. -/
def SAsync.Underway (y : SAsync P) (p : Packet sp) : Prop := p ∈ y.chan ∨ y.disp.Holds p

/-- A message cannot be passed on: its destination takes no part in the session, or has returned. -/
def SendUndeliverable (g : Group P) (node : sp.Id → Option (SendState P)) (p : Packet sp) : Prop :=
  g.parties.contains p.dest = false ∨ ∃ r, node p.dest = some (.done r)

/-- What can be reached from a state. -/
inductive SAsyncLeads (g : Group P) (y : SAsync P) : SAsync P → Prop where
  | refl : SAsyncLeads g y y
  | step {z w : SAsync P} : SAsyncLeads g y z → SAsyncStep g z w → SAsyncLeads g y w

theorem view_done {y : SAsync P} {i : sp.Id} : (∃ r, y.view.node i = some (.done r)) ↔ ∃ r, y.node i = some (.done r) := by
  constructor
  · rintro ⟨r, h⟩
    simp only [SAsync.view] at h
    split at h
    · rename_i r' h1
      exact ⟨_, h1⟩
    · rename_i e h1
      exact ⟨_, h1⟩
    · cases h
  · rintro ⟨r, h⟩
    cases r with
    | ok r => exact ⟨_, by simp only [SAsync.view, h]; rfl⟩
    | error e => exact ⟨_, by simp only [SAsync.view, h]; rfl⟩

theorem DispatchStep.sview {y : SAsync P} {v : Async P} (hs : DispatchStep g y.view v) :
    SAsync.view { y with inbox := v.inbox, chan := v.chan, disp := v.disp } = v := by
  cases hs <;> rfl

theorem sendStep_done {r : Except DriverErr (Report P)} {e : SendEvent sp} : sendStep (P := P) (.done r) e = none := by
  cases e <;> rfl

/-- Whether a party has returned stays so. -/
theorem SAsyncStep.stays_done {y y' : SAsync P} (hs : SAsyncStep g y y') {i : sp.Id} (hi : ∃ r, y.node i = some (.done r)) :
    ∃ r, y'.node i = some (.done r) := by
  obtain ⟨r, hi⟩ := hi
  have hput : ∀ {z : SAsync P} {j : sp.Id} {st : SendState P}, z.node i = some (.done r) → j ≠ i →
      ∃ r, (z.put j st).node i = some (.done r) := by
    intro z j st hz hj
    exact ⟨r, by simp [SAsync.put, Function.update_of_ne hj.symm, hz]⟩
  have hne : ∀ {j : sp.Id} {st : SendState P} {e : SendEvent sp} {q : SendState P × List (MessageOut sp)}, y.node j = some st →
      sendStep st e = some q → j ≠ i := by
    rintro j st e q h1 h2 rfl
    rw [hi] at h1
    cases h1
    rw [sendStep_done] at h2
    cases h2
  cases hs with
  | start _ _ _ hn => exact hput hi (by rintro rfl; rw [hi] at hn; cases hn)
  | go hn hst => exact hput hi (hne hn hst)
  | push hn hst => exact hput hi (hne hn hst)
  | pushErr hn hst => exact hput hi (hne hn hst)
  | tick hn hst => exact hput hi (hne hn hst)
  | @recv j st st' p ps out hn _ hst =>
    exact hput (z := { y with inbox := Function.update y.inbox j ps }) hi (hne hn hst)
  | closed hn _ _ hst => exact hput hi (hne hn hst)
  | dispatch hd => exact ⟨r, hi⟩

/-- **C87.**  When the dispatcher returns, all messages that were ever sent have reached the channels of their destinations, and all
parties have returned. -/
theorem C87_single_settled {k : Nat} {y : SAsync P} (h : SAsyncTakes g k y) (hr : y.disp = .returned) :
    (∀ p, ¬ y.Underway p) ∧ ∀ i, g.parties.contains i = true → ∃ r, y.node i = some (.done r) := by
  have key : y.chan = [] ∧ ∀ i, g.parties.contains i = true → ∃ r, y.node i = some (.done r) := by
    induction h with
    | init => simp [SAsync.init] at hr
    | @step k y y' hk hs ih =>
      by_cases h0 : y.disp = .returned
      · obtain ⟨h1, h2⟩ := ih h0
        refine ⟨?_, fun i hi => hs.stays_done (h2 i hi)⟩
        cases hs with
        | push _ _ _ hne => exact absurd (Or.inl h0) hne
        | dispatch hd => exact absurd (Or.inl h0) hd.going
        | start => exact h1
        | go => exact h1
        | pushErr => exact h1
        | tick => exact h1
        | recv => exact h1
        | closed => exact h1
      · cases hs with
        | dispatch hd =>
          simp only at hr
          refine ⟨hd.returns hr, ?_⟩
          obtain ⟨e1, -, -, -, -, e6, -⟩ := hd.effect_of (by rw [hr]; simp)
          intro i hi
          have := e6 hr i hi
          rw [← view_done]
          exact this
        | push => exact absurd hr h0
        | start => exact absurd hr h0
        | go => exact absurd hr h0
        | pushErr => exact absurd hr h0
        | tick => exact absurd hr h0
        | recv => exact absurd hr h0
        | closed => exact absurd hr h0
  refine ⟨?_, key.2⟩
  rintro p (hp | hp)
  · rw [key.1] at hp
    cases hp
  · rw [hr] at hp
    exact hp

/-- A message that cannot be passed on stays on the way until the dispatcher fails. -/
theorem sstep_late {y y' : SAsync P} (hs : SAsyncStep g y y') {p : Packet sp}
    (h : y.disp = .failed ∨ (y.Underway p ∧ SendUndeliverable g y.node p)) :
    y'.disp = .failed ∨ (y'.Underway p ∧ SendUndeliverable g y'.node p) := by
  rcases h with h | ⟨hp, hu⟩
  · left
    cases hs with
    | dispatch hd => exact absurd (Or.inr h) hd.going
    | start => exact h
    | go => exact h
    | push => exact h
    | pushErr => exact h
    | tick => exact h
    | recv => exact h
    | closed => exact h
  · have hu' : SendUndeliverable g y'.node p := by
      rcases hu with hu | hu
      · exact Or.inl hu
      · exact Or.inr (hs.stays_done hu)
    cases hs with
    | dispatch hd =>
      have hu2 : Undeliverable g y.view.node p := by
        rcases hu with hu | hu
        · exact Or.inl hu
        · exact Or.inr (view_done.2 hu)
      rcases Dispatch_late hd (p := p) (Or.inr hp) hu2 with h1 | ⟨-, h1⟩
      · exact Or.inl h1
      · rw [← hd.sview] at h1
        rcases h1 with ⟨m, hm, -⟩ | h1
        · simp [SAsync.view] at hm
        · exact Or.inr ⟨h1, hu'⟩
    | push =>
      refine Or.inr ⟨?_, hu'⟩
      rcases hp with hp | hp
      · exact Or.inl (List.mem_append_left _ hp)
      · exact Or.inr hp
    | start => exact Or.inr ⟨hp, hu'⟩
    | go => exact Or.inr ⟨hp, hu'⟩
    | pushErr => exact Or.inr ⟨hp, hu'⟩
    | tick => exact Or.inr ⟨hp, hu'⟩
    | recv => exact Or.inr ⟨hp, hu'⟩
    | closed => exact Or.inr ⟨hp, hu'⟩

theorem SAsyncLeads.takes {k : Nat} {y z : SAsync P} (h : SAsyncTakes g k y) (hz : SAsyncLeads g y z) : ∃ k', SAsyncTakes g k' z := by
  induction hz with
  | refl => exact ⟨k, h⟩
  | step _ hs ih =>
    obtain ⟨k', h'⟩ := ih
    exact ⟨k' + 1, h'.step hs⟩

/-- **C87.**  Once a message is on the way to a party that has returned, or to nobody, `run_async` does not return reports any more,
whatever happens. -/
theorem C87_single_late {k : Nat} {y z : SAsync P} (hy : SAsyncTakes g k y) {p : Packet sp} (hp : y.Underway p)
    (hu : SendUndeliverable g y.node p) (hz : SAsyncLeads g y z) (reports : BMap sp.Id (Report P)) : ¬ z.Returns g reports := by
  have key : z.disp = .failed ∨ (z.Underway p ∧ SendUndeliverable g z.node p) := by
    induction hz with
    | refl => exact Or.inr ⟨hp, hu⟩
    | step h1 hs ih => exact sstep_late hs ih
  obtain ⟨k', h'⟩ := hz.takes hy
  rintro ⟨hr, -⟩
  rcases key with h1 | ⟨h1, -⟩
  · rw [hr] at h1
    cases h1
  · exact (C87_single_settled h' hr).1 p h1

/-! ### A message to nobody -/

/-- A party alone that sends to party 7, which takes no part. -/
def lonelyGroup : Group demoHasty.wrap where
  parties := (BSet.ofList [1] : BSet U8)
  signer i := i
  ep _ := { entryRoundId := RoundId.new 1, makeRound := fun _ _ me => .ok (⟨me, (BSet.ofList [7] : BSet U8), 1, 0⟩ : DemoSt) }
  sid := [9]

/-- The state of the party after an event. -/
def sendNext (st : SendState demoHasty.wrap) (e : SendEvent toy) : SendState demoHasty.wrap :=
  match sendStep st e with
  | some (st', _) => st'
  | none => st

/-- The party has made its message. -/
def lonelyMade : SendState demoHasty.wrap := sendNext (lonelyGroup.startSend (1 : U8) (0 : Nat) (0 : Nat)) .go

/-- What the party sends. -/
def lonelyOut : List U8 :=
  match sendStep lonelyMade .accept with
  | some (_, out) => out.map (fun m => (show U8 from m.dest))
  | none => []

/-- The message is in the channel, and no reports will be returned. -/
example : ∃ k y p, SAsyncTakes lonelyGroup k y ∧ y.Underway p ∧ SendUndeliverable lonelyGroup y.node p ∧ y.disp ≠ .failed := by
  have hout : lonelyOut = [7] := by decide +kernel
  have h1 : SAsyncTakes lonelyGroup 1 (SAsync.init.put (1 : U8) (lonelyGroup.startSend (1 : U8) (0 : Nat) (0 : Nat))) :=
    .step .init (.start (g := lonelyGroup) (i := (1 : U8)) (0 : Nat) (0 : Nat) (by decide +kernel) rfl)
  have hgo : ∃ out, sendStep (lonelyGroup.startSend (1 : U8) (0 : Nat) (0 : Nat)) .go = some (lonelyMade, out) := by
    have : (sendStep (lonelyGroup.startSend (1 : U8) (0 : Nat) (0 : Nat)) .go).isSome = true := by decide +kernel
    obtain ⟨⟨st', out⟩, h⟩ := Option.isSome_iff_exists.1 this
    exact ⟨out, by simp only [lonelyMade, sendNext, h]⟩
  obtain ⟨out, hgo⟩ := hgo
  have h2 := h1.step (.go (SAsync.put_self _ _ _) hgo)
  unfold lonelyOut at hout
  cases hs : sendStep lonelyMade .accept with
  | none => simp [hs] at hout
  | some q =>
    obtain ⟨st', out'⟩ := q
    simp only [hs] at hout
    match out', hout with
    | [m], hout =>
      have hm : m.dest = (7 : U8) := (List.cons.inj hout).1
      refine ⟨_, _, ⟨m.sender, m.dest, m.message⟩, h2.step (.push (SAsync.put_self _ _ _) hs (by decide) (by simp [SAsync.Ended, SAsync.put, SAsync.init])),
        Or.inl ?_, Or.inl ?_, ?_⟩
      · simp [SAsync.put]
      · rw [hm]
        show BMap.contains (BSet.ofList [1] : BSet U8) 7 = false
        decide +kernel
      · simp [SAsync.put, SAsync.init]

end Manul
