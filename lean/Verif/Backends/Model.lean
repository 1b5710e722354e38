import Verif.IoUri.Model
import Verif.StringList.Model

/-!
# Audio backends and their dispatcher

Model of

* `roc_sndio/backend_dispatcher.cpp`, `backend_map.cpp`, `driver.h`: choice of the driver for a URI or
  for the default device, list of supported schemes and formats;
* `roc_sndio/wav_backend.cpp`: which files the WAV backend takes;
* `roc_sndio/target_sndfile/roc_sndio/sndfile_backend.cpp`, `sndfile_sink.cpp`,
  `sndfile_extension_table.cpp`: names of the drivers and choice of the file format;
* `roc_sndio/target_sox/roc_sndio/sox_backend.cpp`: names of the drivers.

Strings are lists of bytes without NUL. The outcome of opening a device is a function of the
arguments of `IBackend::open_device`. Not modelled: configuration, memory, log lines.
-/

namespace Verif.Backends

open Verif.Pct (Byte ch)
open Verif.IoUri (str Uri)

/-- `DeviceType` (`device_type.h:19-22`). -/
inductive Dir
  | sink | source
deriving DecidableEq, Repr

/-- `DriverType` without `DriverType_Invalid` (`driver.h:27-36`). -/
inductive Kind
  | file | device
deriving DecidableEq, Repr

/-- `DriverFlag_IsDefault` (`driver.h:41`). -/
def flagDefault : Nat := 1
/-- `DriverFlag_SupportsSource` (`driver.h:44`). -/
def flagSource : Nat := 2
/-- `DriverFlag_SupportsSink` (`driver.h:47`). -/
def flagSink : Nat := 4

/-- `DriverInfo` (`driver.h:51-62`); the backend is its index in the map. -/
structure Driver where
  name : List Byte
  kind : Kind
  flags : Nat
  backend : Nat
deriving DecidableEq, Repr

/-- A call of `IBackend::open_device` (`ibackend.h:35-40`). -/
structure Attempt where
  backend : Nat
  dir : Dir
  kind : Kind
  driver : Option (List Byte)
  path : List Byte
deriving DecidableEq, Repr

/-- The flag of a direction (`backend_dispatcher.cpp:175-177, 203-205`). -/
def Dir.flag : Dir → Nat
  | .sink => flagSink
  | .source => flagSource

/-- `match_driver` (`backend_dispatcher.cpp:41-58`). -/
def matchDriver (d : Driver) (name : Option (List Byte)) (kind : Kind) (flags : Nat) : Bool :=
  if name.isSome && decide (name ≠ some d.name) then false
  else if d.kind ≠ kind then false
  else if d.flags &&& flags = 0 then false
  else true

/-- The loops over the drivers (`backend_dispatcher.cpp:179-195, 208-220`): the calls made, and the
first device opened. `att` gives the call for a driver. -/
def tryDrivers {δ : Type} (opn : Attempt → Option δ) (ok : Driver → Bool) (att : Driver → Attempt) :
    List Driver → List Attempt × Option δ
  | [] => ([], none)
  | d :: ds =>
    if ok d = false then tryDrivers opn ok att ds
    else match opn (att d) with
      | some x => ([att d], some x)
      | none =>
        let r := tryDrivers opn ok att ds
        (att d :: r.1, r.2)

/-- The loop over the backends (`backend_dispatcher.cpp:222-231`). -/
def tryBackends {δ : Type} (opn : Attempt → Option δ) (att : Nat → Attempt) :
    List Nat → List Attempt × Option δ
  | [] => ([], none)
  | b :: bs =>
    match opn (att b) with
    | some x => ([att b], some x)
    | none =>
      let r := tryBackends opn att bs
      (att b :: r.1, r.2)

/-- `open_default_device_` (`backend_dispatcher.cpp:172-196`). -/
def openDefault {δ : Type} (opn : Attempt → Option δ) (drivers : List Driver) (dir : Dir) :
    List Attempt × Option δ :=
  tryDrivers opn (fun d => matchDriver d none .device (flagDefault ||| dir.flag))
    (fun d => ⟨d.backend, dir, .device, some d.name, str "default"⟩) drivers

/-- `open_device_` (`backend_dispatcher.cpp:198-238`), for `n` backends. -/
def openDevice {δ : Type} (opn : Attempt → Option δ) (n : Nat) (drivers : List Driver) (dir : Dir)
    (kind : Kind) (name : Option (List Byte)) (path : List Byte) : List Attempt × Option δ :=
  match name with
  | some nm =>
    tryDrivers opn (fun d => matchDriver d (some nm) kind dir.flag)
      (fun d => ⟨d.backend, dir, kind, some nm, path⟩) drivers
  | none => tryBackends opn (fun b => ⟨b, dir, kind, none, path⟩) (List.range n)

/-- `select_driver_type` (`backend_dispatcher.cpp:19-25`). -/
def selectKind (u : Uri) : Kind := if u.isFile then .file else .device

/-- `select_driver_name` (`backend_dispatcher.cpp:27-39`); `force` is `force_format`. -/
def selectName (u : Uri) (force : Option (List Byte)) : Option (List Byte) :=
  if u.isFile then
    match force with
    | some (c :: f) => some (c :: f)
    | _ => none
  else some u.scheme

/-- `open_sink`, `open_source` (`backend_dispatcher.cpp:90-132`); nothing: the process aborts for an
invalid URI. -/
def openUri {δ : Type} (opn : Attempt → Option δ) (n : Nat) (drivers : List Driver) (dir : Dir)
    (u : Uri) (force : Option (List Byte)) : Option (List Attempt × Option δ) :=
  if u.isValid = false then none
  else some (openDevice opn n drivers dir (selectKind u) (selectName u force) u.path)

/-- The loops of `get_supported_schemes` and `get_supported_formats`
(`backend_dispatcher.cpp:137-147, 159-169`). -/
def collect (kind : Kind) (l : StringList.SL) : List Driver → StringList.SL
  | [] => l
  | d :: ds =>
    if d.kind = kind ∧ (StringList.find l d.name).isNone then collect kind (StringList.pushBack l d.name) ds
    else collect kind l ds

/-- `get_supported_schemes` (`backend_dispatcher.cpp:134-154`). -/
def supportedSchemes (drivers : List Driver) : StringList.SL :=
  StringList.pushBack (collect .device StringList.init drivers) (str "file")

/-- `get_supported_formats` (`backend_dispatcher.cpp:156-170`). -/
def supportedFormats (drivers : List Driver) : StringList.SL :=
  collect .file StringList.init drivers

/-- The strings in a list, read by its client (`string_list.h:44-58`). -/
def strings (l : StringList.SL) : List (List Byte) :=
  if l.size = 0 then [] else StringList.forward l l.size l.front

/-! ### WAV backend -/

/-- `has_suffix` (`wav_backend.cpp:21-28`). -/
def hasSuffix (s suffix : List Byte) : Bool :=
  if suffix.length > s.length then false
  else decide ((s.drop (s.length - suffix.length)).take suffix.length = suffix)

/-- Whether `WavBackend::open_device` goes on to open the file (`wav_backend.cpp:43-60`). -/
def wavTakes (kind : Kind) (driver : Option (List Byte)) (path : List Byte) : Bool :=
  if kind ≠ .file then false
  else match driver with
    | some d => decide (d = str "wav")
    | none => hasSuffix path (str ".wav")

/-! ### Sndfile backend -/

/-- A row of `file_type_map` (`sndfile_extension_table.h:18-26`). -/
structure Row where
  format : Nat
  driver : List Byte
  ext : Option (List Byte)
deriving DecidableEq, Repr

/-- `file_type_map` (`sndfile_extension_table.cpp:14-20`), with the format numbers of `sndfile.h`. -/
def fileTypeMap : List Row :=
  [⟨0x0C0000, str "mat4", none⟩, ⟨0x0D0000, str "mat5", none⟩, ⟨0x010000, str "wav", some (str "wav")⟩,
    ⟨0x070000, str "nist", none⟩, ⟨0x130000, str "wavex", none⟩]

/-- A major format of libsndfile: number and extension (`SF_FORMAT_INFO`,
`sndfile_backend.cpp:33-39`). -/
structure Major where
  format : Nat
  ext : List Byte
deriving DecidableEq, Repr

/-- The inner loop of `SndfileBackend::discover_drivers`: the name of the driver of a major format; the
last row of the table with this format counts (`sndfile_backend.cpp:41-48`). -/
def sndName (m : Major) : List Byte :=
  fileTypeMap.foldl (fun name r => if r.format = m.format then r.driver else name) m.ext

/-- What follows the last dot, unless there is no dot or the last one is the first character
(`sndfile_sink.cpp:46-53`). -/
def extension (path : List Byte) : Option (List Byte) :=
  let tail := (path.reverse.takeWhile (fun c => decide (c ≠ ch '.'))).reverse
  if tail.length = path.length then none          -- no dot
  else if tail.length + 1 = path.length then none -- the last dot is the first character
  else some tail

/-- The choice of the major format in `map_to_sndfile` (`sndfile_sink.cpp:42-120`). Zero is "not
found". -/
def mapToSndfile (majors : List Major) (driver : Option (List Byte)) (path : List Byte) : Option Nat :=
  match extension path with
  | none => none
  | some ext =>
    let fmt :=
      match driver with
      | none => (fileTypeMap.find? fun r : Row => decide (r.ext = some ext)).map Row.format
      | some d => (fileTypeMap.find? fun r : Row => decide (r.driver = d)).map Row.format
    match fmt with
    | some f => some f
    | none =>
      match driver with
      | none => (majors.find? fun m : Major => decide (m.ext = ext)).map Major.format
      | some d => (majors.find? fun m : Major => decide (m.ext = d)).map Major.format

/-! ### Sox backend -/

/-- `default_drivers` (`sox_backend.cpp:24-31`). -/
def soxDefaults : List (List Byte) :=
  [str "waveaudio", str "coreaudio", str "alsa", str "sndio", str "oss"]

/-- `driver_renames` (`sox_backend.cpp:33-36`). -/
def soxRenames : List (List Byte × List Byte) :=
  [(str "waveaudio", str "wave"), (str "coreaudio", str "core")]

/-- `hidden_drivers` (`sox_backend.cpp:38-65`). -/
def soxHidden : List (List Byte) :=
  [str "raw", str "f4", str "f8", str "s1", str "s2", str "s3", str "s4", str "u1", str "u2", str "u3",
    str "u4", str "sb", str "sw", str "sl", str "ub", str "uw", str "sndfile", str "null", str "ao",
    str "ossdsp", str "pulseaudio"]

/-- `map_to_sox_driver` (`sox_backend.cpp:77-87`). -/
def mapToSox (d : List Byte) : List Byte :=
  match soxRenames.find? fun r => decide (r.2 = d) with
  | some r => r.1
  | none => d

/-- `map_from_sox_driver` (`sox_backend.cpp:89-99`). -/
def mapFromSox (d : List Byte) : List Byte :=
  match soxRenames.find? fun r => decide (r.1 = d) with
  | some r => r.2
  | none => d

/-- `is_driver_hidden` (`sox_backend.cpp:101-112`). -/
def isHidden (d : List Byte) : Bool := d.contains (ch '/') || soxHidden.contains d

/-- A format handler of sox: its names and whether it is a device (`sox_format_handler_t`,
`sox_backend.cpp:205-219`). -/
structure Handler where
  names : List (List Byte)
  device : Bool
deriving DecidableEq, Repr

/-- `SoxBackend::discover_drivers` (`sox_backend.cpp:183-224`): default drivers that are present, then the
names of all handlers that are neither hidden nor default. -/
def soxDrivers (backend : Nat) (handlers : List Handler) : List Driver :=
  (soxDefaults.filter fun n => handlers.any fun h => h.names.contains n).map
      (fun n => ⟨mapFromSox n, .device, flagDefault ||| flagSource ||| flagSink, backend⟩) ++
    handlers.flatMap fun h =>
      (h.names.filter fun n => !(isHidden (mapFromSox n) || soxDefaults.contains (mapFromSox n))).map
        fun n => ⟨mapFromSox n, if h.device then .device else .file, flagSource ||| flagSink, backend⟩

/-- The names that pass the first check of `SoxBackend::open_device` (`sox_backend.cpp:235-243`), and the
name given to sox. -/
def soxAccepts (driver : List Byte) : Option (List Byte) :=
  if isHidden (mapToSox driver) then none else some (mapToSox driver)

end Verif.Backends
