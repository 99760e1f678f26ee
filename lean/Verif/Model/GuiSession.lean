import Verif.Model.GuiKeyCeremony

/-!
# Who uses the GUI: the session of a program, its role and its user
-/

namespace EG

/-- authorization_service.py:8-36 `AuthorizationService`: one per running program. -/
structure GuiSession where
  isAdmin : Bool
  userId : Option String
  deriving DecidableEq, Repr

/-- configuration_service.py:33-34 `get_is_admin` with authorization_service.py:13-17 `__init__`; `param` is the environment
variable, if there is one.  Simplified: `lower` for ASCII letters. -/
def GuiSession.start (param : Option String) : GuiSession := 
  ⟨(param.getD "false").toList.map Char.toLower == "true".toList, none⟩

/-- authorization_service.py:24-27 `get_required_user_id`. -/
def GuiSession.requiredUserId (g : GuiSession) : R String :=
  match g.userId with
  | none => .error .value
  | some u => .ok u

/-- authorization_service.py:32-33 `set_user_id`, which the browser calls. -/
def GuiSession.setUserId (g : GuiSession) (user : String) : GuiSession := { g with userId := some user }

/-- The `should_run` of the stages as the session calls them (key_ceremony_s2_announce_service.py:20-25, s3:12-23, s4:21-25,
s5:14-27, s6:19-23): s3 and s5 ask for the user before they look at the role. -/
def GuiSession.shouldRun (g : GuiSession) (d : KCDoc) : KCStage → R Bool
  | .announce => .ok (g.isAdmin && decide (d.state = .pendingAdminAnnounce))
  | .makeBackups => do
    let user ← g.requiredUserId
    return !g.isAdmin && decide (d.state = .pendingGuardianBackups) && !decide (0 < d.backupCount user)
  | .shareBackups => .ok (g.isAdmin && decide (d.state = .pendingAdminToShareBackups))
  | .verifyBackups => do
    let user ← g.requiredUserId
    return !g.isAdmin && decide (d.state = .pendingGuardiansVerifyBackups) && !decide (0 < d.verificationCount user)
  | .publish => .ok (g.isAdmin && decide (d.state = .pendingAdminToPublishJointKey))

/-- key_ceremony_details_component.py:103-106: the loop over the stages, up to the one that runs. -/
def GuiSession.firstStage (g : GuiSession) (d : KCDoc) : List KCStage → R (Option KCStage)
  | [] => .ok none
  | st :: sts => do
    if ← g.shouldRun d st then return some st
    g.firstStage d sts

/-- key_ceremony_details_component.py:93-106: the stage that the session runs. -/
def GuiSession.stage (g : GuiSession) (d : KCDoc) : R (Option KCStage) :=
  g.firstStage d [.announce, .makeBackups, .shareBackups, .verifyBackups, .publish]

/-- The key ceremony with all programs that use it. -/
structure SessionSystem where
  sys : KCSystem
  sessions : List GuiSession

/-- What happens: somebody gives a name to a session, a session joins, a session reads the document, a call under way takes its
next step. -/
inductive SessionEvent where
  | login (i : Nat) (user : String)
  | join (i : Nat)
  | poll (i : Nat)
  | step (j : Nat) (rands : Nat → Nat × Nat) (nonces : Nat → Nat)

/-- One event.  `join` is key_ceremony_details_component.py:125-132 with s1:16-18, `poll` is :93-106; an exception changes
nothing.  Simplified: the stages 3 and 5 ask for the user once more when they run; here it is the user of the choice. -/
def SessionSystem.event (E : Env) (loads : Bytes → R (List Char)) (s : SessionSystem) : SessionEvent → SessionSystem
  | .login i user => { s with sessions := s.sessions.modify i (fun g => g.setUserId user) }
  | .join i =>
    match s.sessions[i]? with
    | none => s
    | some g =>
      match g.requiredUserId with
      | .error _ => s
      | .ok user => { s with sys := s.sys.event E loads (.join user) }
  | .poll i =>
    match s.sessions[i]? with
    | none => s
    | some g =>
      match g.stage s.sys.doc with
      | .error _ => s
      | .ok none => s
      | .ok (some st) =>
        { s with sys := { s.sys with procs := s.sys.procs ++ [.running (g.userId.getD "") st s.sys.doc] } }
  | .step j rands nonces => { s with sys := s.sys.event E loads (.step j rands nonces) }

/-- A sequence of events. -/
def SessionSystem.run (E : Env) (loads : Bytes → R (List Char)) (s : SessionSystem) (evs : List SessionEvent) :
    SessionSystem :=
  evs.foldl (SessionSystem.event E loads) s

/-- A new ceremony, used by the sessions. -/
def SessionSystem.init (guardianCount quorum : Int) (sessions : List GuiSession) : SessionSystem :=
  ⟨KCSystem.init guardianCount quorum, sessions⟩

end EG
