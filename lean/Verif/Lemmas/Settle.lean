import Verif.Lemmas.Stall
import Mathlib.Logic.Relation

/-! # A network left alone comes to rest -/

namespace Manul

variable {sp : SP} {P : Proto sp}

theorem ByzStep.mono {g : Group P} {H : sp.Id → Prop} {adv adv' : Packet sp → Prop} (h : ∀ p, adv p → adv' p) {n n' : Net P}
    (hs : ByzStep g H adv n n') : ByzStep g H adv' n n' := by
  cases hs with
  | start rng rng' h1 h2 => exact .start rng rng' h1 h2
  | tick h1 h2 => exact .tick h1 h2
  | deliver h1 h2 h3 => exact .deliver h1 h2 h3
  | inject h1 h2 => exact .inject h1 (h _ h2)

/-- Where no step is possible but messages from outside, the parties following the protocol are stuck. -/
theorem stalled_of_rest {g : Group P} {H : sp.Id → Prop} (rng : sp.Rng) {n : Net P}
    (h : ∀ n', ¬ ByzStep g H (fun _ => False) n n') : Stalled H n := by
  have htick : ∀ i s a, n.node i = some (.running s a) → a.canFinalize = .notYet := by
    intro i s a hn
    cases hc : a.canFinalize with
    | notYet => rfl
    | yes => exact absurd (ByzStep.tick (rng := rng) hn (by simp only [step, hc]; rfl)) (h _)
    | never => exact absurd (ByzStep.tick (rng := rng) hn (by simp only [step, hc]; rfl)) (h _)
  refine ⟨fun i hi hn => h _ (.start rng rng hi hn), ?_, htick⟩
  intro p hp _ s a hn
  obtain ⟨w, w', hw⟩ := List.append_of_mem hp
  have hc := htick _ s a hn
  cases hd : deliver s a p.src p.message with
  | error e => exact h _ (.deliver hw hn (by simp only [step, hc, hd]; rfl))
  | ok a' => exact h _ (.deliver hw hn (by simp only [step, hc, hd]; rfl))

namespace Byz

variable {z : Byz P}

theorem pos_ge (echoAt : Nat → Bool) (t : Nat) : t ≤ posCode (pos echoAt t) := by
  induction t with
  | zero => exact Nat.zero_le _
  | succ t ih => exact Nat.lt_of_le_of_lt ih (posCode_mono echoAt (Nat.lt_succ_self t))

theorem NetInv.bound {G : History P} {e : sp.Id → Nat} {net : Net P} (h : z.NetInv G e net) (i : sp.Id) : e i ≤ 2 * z.pl.n := by
  cases he : e i with
  | zero => exact Nat.zero_le _
  | succ t =>
    have h1 := h.entered i t (by omega)
    have h2 : t ≤ posCode (z.pl.at' t) := pos_ge _ t
    unfold posCode at h2
    split at h2 <;> omega

/-- The number of positions party `i` may still enter. -/
def left (z : Byz P) (net : Net P) (e : sp.Id → Nat) (i : sp.Id) : Nat :=
  match net.node i with
  | none => 2 * z.pl.n + 2
  | some (.running _ _) => 2 * z.pl.n + 1 - e i
  | some (.done _) => 0

theorem sum_le {α : Type} {f g : α → Nat} {l : List α} (h : ∀ x ∈ l, f x ≤ g x) : (l.map f).sum ≤ (l.map g).sum := by
  induction l with
  | nil => simp
  | cons x l ih =>
    simp only [List.map_cons, List.sum_cons]
    have := h x (by simp)
    have := ih (fun y hy => h y (by simp [hy]))
    omega

theorem sum_lt {α : Type} {f g : α → Nat} {l : List α} (h : ∀ x ∈ l, f x ≤ g x) {i : α} (hi : i ∈ l) (hlt : f i < g i) :
    (l.map f).sum < (l.map g).sum := by
  induction l with
  | nil => simp at hi
  | cons x l ih =>
    simp only [List.map_cons, List.sum_cons]
    have h1 := h x (by simp)
    have h2 := sum_le (fun y hy => h y (by simp [hy]) : ∀ y ∈ l, f y ≤ g y)
    rcases List.mem_cons.1 hi with rfl | hi
    · omega
    · have := ih (fun y hy => h y (by simp [hy])) hi
      omega

/-- Every step but those of the others uses something up. -/
theorem Change.less {hs : List sp.Id} (hH : ∀ i, z.H i → i ∈ hs) {G G' : History P} {e e' : sp.Id → Nat} {net net' : Net P}
    (h : z.NetInv G e net) (h' : z.NetInv G' e' net') (hc : z.Change (fun _ => False) e e' net net') :
    Prod.Lex (· < ·) (· < ·) ((hs.map (z.left net' e')).sum, net'.wire.length) ((hs.map (z.left net e)).sum, net.wire.length) := by
  cases hc with
  | @move i hi hn ho hm =>
    refine Prod.Lex.left _ _ ?_
    have hlt : z.left net' e' i < z.left net e i := by
      have h1 := h.bound i
      have h2 := h'.bound i
      have hold : 2 * z.pl.n + 1 - e i ≤ z.left net e i := by
        unfold left
        split
        · omega
        · exact Nat.le_refl _
        · rename_i r' h5; exact absurd h5 (hn r')
      rcases hm.2 with ⟨r, h3⟩ | ⟨s, a, h3, h4⟩
      · have hnew : z.left net' e' i = 0 := by simp only [left, h3]
        omega
      · have hnew : z.left net' e' i = 2 * z.pl.n + 1 - e' i := by simp only [left, h3]
        omega
    refine sum_lt (fun x _ => ?_) (hH i hi) hlt
    by_cases hx : x = i
    · rw [hx]; exact hlt.le
    · unfold left
      rw [ho x hx, hm.1 x hx]
  | @shrink i s a a' hn hn' ho hl he =>
    subst he
    have heq : z.left net' e' = z.left net e' := by
      funext x
      by_cases hx : x = i
      · subst hx
        simp only [left, hn, hn']
      · unfold left
        rw [ho x hx]
    rw [heq]
    exact Prod.Lex.right _ hl
  | inject h => exact absurd h id

/-- So the parties following the protocol cannot go on forever by themselves. -/
theorem NetInv.acc (ok : z.Ok) {hs : List sp.Id} (hH : ∀ i, z.H i → i ∈ hs) {G : History P} {e : sp.Id → Nat} {net : Net P}
    (h : z.NetInv G e net) : Acc (fun m' m => ByzStep z.pl.g z.H (fun _ => False) m m') net := by
  have wf : WellFounded (Prod.Lex (· < ·) (· < ·) : Nat × Nat → Nat × Nat → Prop) :=
    WellFounded.prod_lex Nat.lt_wfRel.wf Nat.lt_wfRel.wf
  generalize hw : ((hs.map (z.left net e)).sum, net.wire.length) = w
  induction w using wf.induction generalizing G e net with
  | _ w ih =>
    refine Acc.intro _ (fun m hm => ?_)
    obtain ⟨G', e', h', hc⟩ := h.step ok (adv := fun _ => False) (fun _ _ hf => absurd hf id) hm
    exact ih _ (hw ▸ hc.less hH h h') h' rfl

end Byz

theorem rest_of_acc {α : Type _} {r : α → α → Prop} {a : α} (h : Acc (fun y x => r x y) a) :
    ∃ b, Relation.ReflTransGen r a b ∧ ∀ c, ¬ r b c := by
  induction h with
  | intro a _ ih =>
    by_cases hs : ∃ c, r a c
    · obtain ⟨c, hc⟩ := hs
      obtain ⟨b, h1, h2⟩ := ih c hc
      exact ⟨b, .head hc h1, h2⟩
    · exact ⟨a, .refl, fun c hc => hs ⟨c, hc⟩⟩

theorem ByzReach.steps {g : Group P} {H : sp.Id → Prop} {adv : Packet sp → Prop} {n n' : Net P} (h : ByzReach g H adv n)
    (hs : Relation.ReflTransGen (ByzStep g H (fun _ => False)) n n') : ByzReach g H adv n' := by
  induction hs with
  | refl => exact h
  | tail _ hs ih => exact .step ih (hs.mono (fun _ hf => absurd hf id))

end Manul
