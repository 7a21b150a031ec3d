import Verif.Model.Extend
import Verif.Model.RunSync

/-!
# Checking that misbehaviour is detected

Model of `/repo/manul/src/dev/misbehave.rs`.

Simplification: descriptions of evidence are not part of the model; whether the description contains the expected text
(`misbehave.rs:91-95`) is a parameter, `described`.
-/

namespace Manul

variable {sp : SP} {P : Proto sp} {Tag : Type}

/-- The value `ExtendableEntryPoint` (`extend.rs:328-331`). -/
structure ExtEntry {sp : SP} (P : Proto sp) (Tag : Type) where
  entry : EntryPoint P
  exts : Tag → Option (Ext P)

/-- `ExtendableEntryPoint::new` (`extend.rs:339-344`). -/
def ExtEntry.new (ep : EntryPoint P) : ExtEntry P Tag := ⟨ep, fun _ => none⟩

/-- `ExtendableEntryPoint::with_extension` (`extend.rs:347-364`). -/
def ExtEntry.withExtension [DecidableEq Tag] (x : ExtEntry P Tag) (t : Tag) (e : Ext P) : ExtEntry P Tag :=
  ⟨x.entry, addExt x.exts t e⟩

/-- The entry point it is (`extend.rs:367-385`). -/
def ExtEntry.toEntry (tag : P.Rd → Tag) (x : ExtEntry P Tag) : EntryPoint (extend P (fun r => some (tag r))) :=
  extendEntry (fun r => some (tag r)) x.entry x.exts

/-- How the functions fail: the errors they return, those of `run_sync`, and the panic of the assertion
(`misbehave.rs:59`). -/
inductive MisErr (sp : SP) where
  | noEntryPoints
  | sync (e : SyncErr)
  | absent
  | panicAccuses
  | noErrors (i : sp.Id)
  | manyErrors (i : sp.Id)
  | otherParty (i : sp.Id)
  | otherDescription (i : sp.Id)
  | notVerified (i : sp.Id)

/-- `extend_one` (`misbehave.rs:18-40`). -/
def extendOne (f : ExtEntry P Tag → ExtEntry P Tag) (eps : List (sp.Signer × EntryPoint P)) :
    Except (MisErr sp) (sp.Id × List (sp.Signer × ExtEntry P Tag)) :=
  match eps.getLast? with
  | none => .error .noEntryPoints
  | some (signer, ep) =>
    .ok (sp.verifyingKey signer,
      eps.dropLast.map (fun e => (e.1, ExtEntry.new e.2)) ++ [(signer, f (ExtEntry.new ep))])

/-- The body of the loop of `check_evidence` (`misbehave.rs:61-109`). -/
def checkReport (t : sp.Id) (shared : P.Shared) (described : Evidence sp → Bool) (i : sp.Id) (r : Report P) :
    Except (MisErr sp) Unit :=
  if r.provable.isEmpty then .error (.noErrors i)
  else if 1 < r.provable.size then .error (.manyErrors i)
  else
    match r.provable.get? t with
    | none => .error (.otherParty i)
    | some ev =>
      if described ev = false then .error (.otherDescription i)
      else
        match ev.verify P shared with
        | .error _ => .error (.notVerified i)
        | .ok _ => .ok ()

/-- `check_evidence` (`misbehave.rs:44-112`). -/
def checkEvidence (t : sp.Id) (reports : BMap sp.Id (Report P)) (shared : P.Shared) (described : Evidence sp → Bool) :
    Except (MisErr sp) Unit :=
  match reports.get? t with
  | none => .error .absent
  | some r =>
    if r.provable.isEmpty = false then .error .panicAccuses
    else foldE (fun _ (e : sp.Id × Report P) => checkReport t shared described e.1 e.2) () (reports.erase t).toList

/-- `check_evidence_with_extensions` (`misbehave.rs:118-134`): its possible outcomes.  `run_sync` draws the session id. -/
def CheckWithExtensions (tag : P.Rd → Tag) (eps : List (sp.Signer × EntryPoint P)) (shared : P.Shared)
    (f : ExtEntry P Tag → ExtEntry P Tag) (described : Evidence sp → Bool) (o : Except (MisErr sp) Unit) : Prop :=
  match extendOne f eps with
  | .error e => o = .error e
  | .ok (t, eps') => ∃ sid r, RunSync (P := extend P (fun r => some (tag r))) sid (eps'.map (fun e => (e.1, e.2.toEntry tag))) r ∧
      o = match r with
        | .error e => .error (.sync e)
        | .ok reports => checkEvidence (P := extend P (fun r => some (tag r))) t reports shared described

/-- `check_evidence_with_extension` (`misbehave.rs:139-158`). -/
def CheckWithExtension [DecidableEq Tag] (tag : P.Rd → Tag) (eps : List (sp.Signer × EntryPoint P)) (shared : P.Shared)
    (ty : Tag) (ext : Ext P) (described : Evidence sp → Bool) (o : Except (MisErr sp) Unit) : Prop :=
  CheckWithExtensions tag eps shared (fun x => x.withExtension ty ext) described o

end Manul
