import Verif.Lemmas.ByzantineInv
import Verif.Spec.LockStep

/-!
# Lemmas for C81: consecutive positions
-/

namespace Manul

namespace Byz

variable {sp : SP} {P : Proto sp} {z : Byz P}

theorem follows (ok : z.Ok) {t : Nat} (h : (z.pl.at' t).1 < z.pl.n) (h' : (z.pl.at' (t + 1)).1 < z.pl.n) :
    z.pl.Follows (z.pl.idAt t) (z.pl.idAt (t + 1)) := by
  simp only [Plan.idAt, Plan.at', pos] at h h' ⊢
  cases hq : pos z.pl.echoAt t with
  | mk k b =>
    rw [hq] at h h'
    have hno := ok.rob.notEcho k h
    have hech : (z.pl.rid k).echo = .ok (posId z.pl.rid (k, true)) := by
      unfold RoundId.echo posId
      simp [hno]
    cases b with
    | false =>
      simp only [nextPos] at h' ⊢
      split at h'
      · rename_i he
        rw [if_pos he, posId_main hno]
        exact .echo h he hech
      · rename_i he
        rw [if_neg he, posId_main hno, posId_main (ok.rob.notEcho _ h')]
        exact .main h' (by simpa using he)
    | true =>
      simp only [nextPos] at h' ⊢
      rw [posId_main (ok.rob.notEcho _ h')]
      exact .afterEcho h' (pos_echo hq) hech

end Byz

end Manul
