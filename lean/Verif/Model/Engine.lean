import Verif.Base

/-!
Transfers in the engine as seen by `ovirt-img`: `client/_ovirt.py`, `client/_upload.py`,
`client/_download.py`.

The engine is the environment: its answers are arbitrary.  A loop that polls the engine
runs on the list of the polls; the result is `none` if the list ends before the loop.
Logging and the fields of the SDK objects that decide nothing are not modelled.
-/
namespace Imageio.Engine

/-- `types.ImageTransferPhase`: the phases that are compared in the code, and the others
(`FINALIZING_SUCCESS`, `CANCELLED_USER`, ...).  `_ovirt.py:288`, `292`, `296`, `299`, `404`, `407`. -/
inductive Phase where
  | initializing | transferring | pausedSystem | finishedSuccess | finishedFailure
  | other (n : Nat)
deriving DecidableEq, Repr

/-- `types.DiskStatus`.  `_ovirt.py:395`, `430`, `433`. -/
inductive DiskStatus where
  | ok | illegal | locked
deriving DecidableEq, Repr

/-- The answer to a `get()` of the SDK: the value, `sdk.NotFoundError`, or another error.
`_ovirt.py:282-286`, `379-393`, `429`. -/
inductive Reply (α : Type) where
  | value (a : α)
  | notFound
  | failed
deriving DecidableEq, Repr

/-- The calls that change something in the engine.  `_ovirt.py:95`, `274`, `293`, `331`, `376`. -/
inductive Call where
  | addDisk | addTransfer | cancel | finalize
deriving DecidableEq, Repr

/-- The errors raised to the caller.  `_ovirt.py:266-271`, `286-308`, `391-413`, `427`, `431`; `terminated` is
`TerminatedBySignal`, `_app.py:14-20`. -/
inductive Error where
  | removed | failure | paused | unexpected (p : Phase) | timeout | diskRemoved
  | diskStatus (s : DiskStatus) | diskIllegal | sdk | unsupportedImage | terminated (signo : Nat) | local (n : Nat)
deriving DecidableEq, Repr

/-- What a step of the client did: the calls it made, and its value or error.
Of this model; there is no such object in `_ovirt.py:212-434`. -/
structure Out (α : Type) where
  calls : List Call
  res : Except Error α
deriving Repr

/-- One round of the loop of `create_transfer`: the answer of the engine, whether a
`cancel()` in this round succeeds, and the clock at the comparison with the deadline.
`_ovirt.py:283`, `293`, `304`. -/
structure CreatePoll where
  reply : Reply Phase
  cancelOk : Bool
  now : Nat
deriving DecidableEq, Repr

/-- `transfer_service.cancel(); raise RuntimeError(...)`, `_ovirt.py:293-294,300-302,306-308`.
If the cancel fails its error is raised instead. -/
def cancelAnd (p : CreatePoll) (e : Error) : Out Unit :=
  { calls := [.cancel], res := .error (if p.cancelOk then e else .sdk) }

/-- `_ovirt.py:281-310` the loop of `create_transfer`. -/
def createLoop (deadline : Nat) : List CreatePoll → Option (Out Unit)
  | [] => none
  | p :: ps =>
    match p.reply with
    | .notFound => some { calls := [], res := .error .removed }
    | .failed => some { calls := [], res := .error .sdk }
    | .value phase =>
      if phase = .finishedFailure then some { calls := [], res := .error .failure }
      else if phase = .pausedSystem then some (cancelAnd p .paused)
      else if phase = .transferring then some { calls := [], res := .ok () }
      else if phase ≠ .initializing then some (cancelAnd p (.unexpected phase))
      else if p.now > deadline then some (cancelAnd p .timeout)
      else createLoop deadline ps

/-- `_ovirt.py:212-319` `create_transfer`, `start + timeout = deadline`.  `image` tells if
the image is a disk or a snapshot (`_ovirt.py:266-271`), `addOk` and `linkOk` if adding the
transfer and following the link to its host succeed (`_ovirt.py:274,314`). -/
def createTransfer (image addOk : Bool) (deadline : Nat) (polls : List CreatePoll)
    (linkOk : Bool) : Option (Out Unit) :=
  if !image then some { calls := [], res := .error .unsupportedImage }
  else if !addOk then some { calls := [.addTransfer], res := .error .sdk }
  else
    match createLoop deadline polls with
    | none => none
    | some o =>
      some { calls := .addTransfer :: o.calls,
             res := match o.res with
               | .error e => .error e
               | .ok () => if linkOk then .ok () else .error .sdk }

/-- One round of the loop of `finalize_transfer`: the answer about the transfer, the answer
about the disk in case it is asked, and the clock.  `_ovirt.py:380`, `387`, `410`. -/
structure FinalizePoll where
  reply : Reply Phase
  disk : Reply DiskStatus
  now : Nat
deriving DecidableEq, Repr

/-- `_ovirt.py:377-413` the loop of `finalize_transfer`. -/
def finalizeLoop (deadline : Nat) : List FinalizePoll → Option (Except Error Unit)
  | [] => none
  | p :: ps =>
    match p.reply with
    | .failed => some (.error .sdk)
    | .notFound =>
      match p.disk with
      | .notFound => some (.error .diskRemoved)
      | .failed => some (.error .sdk)
      | .value s => if s = .ok then some (.ok ()) else some (.error (.diskStatus s))
    | .value phase =>
      if phase = .finishedSuccess then some (.ok ())
      else if phase = .finishedFailure then some (.error .failure)
      else if p.now > deadline then some (.error .timeout)
      else finalizeLoop deadline ps

/-- `_ovirt.py:334-416` `finalize_transfer`; `finalizeOk` tells if `finalize()` succeeds. -/
def finalizeTransfer (finalizeOk : Bool) (deadline : Nat) (polls : List FinalizePoll) :
    Option (Out Unit) :=
  if !finalizeOk then some { calls := [.finalize], res := .error .sdk }
  else (finalizeLoop deadline polls).map fun r => { calls := [.finalize], res := r }

/-- One round of the loop of `_wait_for_disk`.  `_ovirt.py:426-434`. -/
structure DiskPoll where
  now : Nat
  reply : Reply DiskStatus
deriving DecidableEq, Repr

/-- `_ovirt.py:419-434` `_wait_for_disk`. -/
def waitForDisk (deadline : Nat) : List DiskPoll → Option (Except Error Unit)
  | [] => none
  | p :: ps =>
    if p.now > deadline then some (.error .timeout)
    else
      match p.reply with
      | .notFound => some (.error .sdk)
      | .failed => some (.error .sdk)
      | .value s =>
        if s = .illegal then some (.error .diskIllegal)
        else if s = .ok then some (.ok ())
        else waitForDisk deadline ps

/-- `_ovirt.py:60-114` `add_disk`. -/
def addDisk (addOk : Bool) (deadline : Nat) (polls : List DiskPoll) : Option (Out Unit) :=
  if !addOk then some { calls := [.addDisk], res := .error .sdk }
  else (waitForDisk deadline polls).map fun r => { calls := [.addDisk], res := r }

/-- Run the first step, and the second if the first succeeded.
Consecutive statements, for example `_upload.py:73-93`. -/
def Out.andThen (o : Out Unit) (next : Option (Out Unit)) : Option (Out Unit) :=
  match o.res with
  | .error e => some { calls := o.calls, res := .error e }
  | .ok () => next.map fun n => { calls := o.calls ++ n.calls, res := n.res }

/-- `then` for steps that may be waiting.  Consecutive statements, for example `_upload.py:73-93`. -/
def andThen (o next : Option (Out Unit)) : Option (Out Unit) :=
  match o with
  | none => none
  | some o => o.andThen next

/-- A local step that makes no calls to the engine and may raise.  `_upload.py:73-74`, `92`. -/
def localStep (r : Except Error Unit) : Option (Out Unit) := some { calls := [], res := r }

/-- What happens in one run of `upload_disk`, besides the arguments.  `_upload.py:70-112`. -/
structure UploadEnv where
  /-- `_prepare` and `connect`, `_upload.py:73-74`. -/
  prepare : Except Error Unit
  addDiskOk : Bool
  diskDeadline : Nat
  diskPolls : List DiskPoll
  /-- `find_host`, `_upload.py:92`. -/
  findHost : Except Error Unit
  addTransferOk : Bool
  createDeadline : Nat
  createPolls : List CreatePoll
  linkOk : Bool
  /-- `_api.upload`, `_upload.py:96-105`; raises an `Exception` or returns. -/
  upload : Except Error Unit
  /-- `cancel_transfer` succeeds, `_upload.py:108`. -/
  cancelOk : Bool
  finalizeOk : Bool
  finalizeDeadline : Nat
  finalizePolls : List FinalizePoll

/-- `_upload.py:94-112` the upload and what follows. -/
def uploadAndFinish (e : UploadEnv) : Option (Out Unit) :=
  match e.upload with
  | .error err =>
    some { calls := [.cancel], res := .error (if e.cancelOk then err else .sdk) }
  | .ok () => finalizeTransfer e.finalizeOk e.finalizeDeadline e.finalizePolls

/-- `_upload.py:70-112` `upload_disk`.  Closing the connection and the progress bar change
nothing in the engine. -/
def uploadDisk (e : UploadEnv) : Option (Out Unit) :=
  andThen (localStep e.prepare) <|
  andThen (addDisk e.addDiskOk e.diskDeadline e.diskPolls) <|
  andThen (localStep e.findHost) <|
  andThen (createTransfer true e.addTransferOk e.createDeadline e.createPolls e.linkOk) <|
  uploadAndFinish e

/-- What happens in one run of `download_disk`, besides the arguments.  `_download.py:38-63`. -/
structure DownloadEnv where
  /-- `connect`, `find_disk`, `find_storage_domain`, `find_host`, `_download.py:40-44`. -/
  prepare : Except Error Unit
  addTransferOk : Bool
  createDeadline : Nat
  createPolls : List CreatePoll
  linkOk : Bool
  /-- `_api.download`, `_download.py:50-59`. -/
  download : Except Error Unit
  finalizeOk : Bool
  finalizeDeadline : Nat
  finalizePolls : List FinalizePoll

/-- `_download.py:48-62` the download, and the `finally` block: an error of the block
replaces the error of the download. -/
def downloadAndFinish (e : DownloadEnv) : Option (Out Unit) :=
  (finalizeTransfer e.finalizeOk e.finalizeDeadline e.finalizePolls).map fun o =>
    { calls := o.calls,
      res := match o.res with
        | .error err => .error err
        | .ok () => e.download }

/-- `_download.py:38-63` `download_disk`. -/
def downloadDisk (e : DownloadEnv) : Option (Out Unit) :=
  andThen (localStep e.prepare) <|
  andThen (createTransfer true e.addTransferOk e.createDeadline e.createPolls e.linkOk) <|
  downloadAndFinish e

end Imageio.Engine
