import Verif.DlList
import Verif.Ini

/-!
# Loading and releasing configurations and certificate files (model)

/repo/src/brski/config.c over the memory of nodes and data blocks of `DlList`.  The numeric member
`port` (read with `ini_getl`) owns no memory and is left out.
-/

namespace Brski.Config
open Outcome DlList Ini

/-- `INI_BUFFERSIZE` of minIni (/repo/src/brski/config.c:61). -/
def iniBuffer : Nat := 512

/-- `MAX_CONFIG_VALUE_SIZE`, /repo/src/brski/config.c:32. -/
def maxValue : Nat := 2048

/-- `TIME_ISO_STR_SIZE`, /repo/src/brski/config.c:31. -/
def timeSize : Nat := 22

/-- A block of `size` zeroed bytes into which a text was written (`sys_zalloc` and `ini_gets`,
/repo/src/brski/config.c:54,61). -/
def textBlock (size : Nat) (s : Bytes) : Bytes := s ++ List.replicate (size - s.length) 0

/-- Loop of `load_config_value_list`, /repo/src/brski/config.c:51-75.  `fuel` bounds the iterations
(running out of it stands for a loop that does not end); `al` tells which allocations succeed, three per
iteration.  The result is the memory and the return value. -/
def valueLoop (al : Nat → Bool) (file : IniFile) (sec key : Bytes) (list store : Nat) :
    Nat → Nat → Mem → Outcome (Mem × Bool)
  | 0, _, _ => .ub
  | fuel + 1, idx, m =>
    let name := getkey file sec idx maxValue
    if name = [] then
      (m.freeData store).bind fun m => .ok (m, true)
    else if al (3 * idx) then
      let value := gets file sec name [] iniBuffer
      let r := m.newData (textBlock maxValue value)
      (if name = key ∧ value ≠ [] then
        pushArray (fun k => al (3 * idx + 1 + k)) r.1 (some list) (some (textBlock maxValue value)) (value.length + 1) 0
      else .ok (r.1, true)).bind fun p =>
      (p.1.freeData r.2).bind fun m =>
      if p.2 then valueLoop al file sec key list store fuel (idx + 1) m
      else
        (m.freeData store).bind fun m => (freeList m (some list)).bind fun m => .ok (m, false)
    else
      (m.freeData store).bind fun m => (freeList m (some list)).bind fun m => .ok (m, false)

/-- `load_config_value_list`, /repo/src/brski/config.c:34-79: memory, the pointer left in
`*value_list`, and the return value.  Failure inside the loop leaves the pointer to the released list. -/
def loadValueList (al : Nat → Bool) (file : IniFile) (sec key : Bytes) (m : Mem) :
    Outcome (Mem × Option Nat × Bool) :=
  if al 0 then
    let r := m.newData (List.replicate maxValue 0)
    (initList (fun _ => al 1) r.1).bind fun l =>
    match l.2 with
    | none => (l.1.freeData r.2).bind fun m => .ok (m, none, false)
    | some list =>
      (valueLoop (fun k => al (k + 2)) file sec key list r.2 (file.length + 1) 0 l.1).bind fun p =>
      .ok (p.1, some list, p.2)
  else .ok (m, none, false)

/-- The three sections of the configuration (/repo/src/brski/config.h). -/
inductive Sec where
  | pledge | registrar | masa
deriving Repr, DecidableEq

/-- String members of the three structures (/repo/src/brski/pledge/pledge_config.h,
/repo/src/brski/registrar/registrar_config.h, /repo/src/brski/masa/masa_config.h:14-27). -/
inductive Field where
  | bindAddress | expiresOn | ldevidCaCert | tlsCert | tlsKey | tlsCaCert | tlsCaKey | cmsSignCert | cmsSignKey
  | createdOn | serialNumber | nonce | idevidKey | idevidCert | idevidCaCert
deriving Repr, DecidableEq

/-- List members of the three structures (/repo/src/brski/masa/masa_config.h:14-27). -/
inductive LField where
  | add | verifyCerts | verifyStore
deriving Repr, DecidableEq

/-- A pointer member of `struct brski_config` (/repo/src/brski/config.h). -/
inductive Slot where
  | str (s : Sec) (f : Field)
  | list (s : Sec) (l : LField)
deriving Repr, DecidableEq

/-- The pointers in a `struct brski_config` (/repo/src/brski/config.h). -/
abbrev Conf := Slot → Option Nat

/-- Assignment to a member (/repo/src/brski/config.c:147,149). -/
def Conf.put (c : Conf) (s : Slot) (p : Option Nat) : Conf := fun t => if t = s then p else c t

/-- Release of one member: strings are tested for NULL, lists are passed to `free_array_list`; the
member is set to NULL (/repo/src/brski/config.c:83-134). -/
def freeSlot (m : Mem) (c : Conf) (s : Slot) : Outcome (Mem × Conf) :=
  match s with
  | .str _ _ =>
    match c s with
    | none => .ok (m, c)
    | some p => (m.freeData p).bind fun m => .ok (m, c.put s none)
  | .list _ _ => (freeList m (c s)).bind fun m => .ok (m, c.put s none)

/-- Release of several members in order (/repo/src/brski/config.c:81-135). -/
def freeSlots (m : Mem) (c : Conf) : List Slot → Outcome (Mem × Conf)
  | [] => .ok (m, c)
  | s :: ss => (freeSlot m c s).bind fun r => freeSlots r.1 r.2 ss

/-- The string members in the order in which they are released:
`free_pledge_config_content` /repo/src/brski/config.c:448-497,
`free_registrar_config_content` /repo/src/brski/config.c:274-318,
`free_masa_config_content` /repo/src/brski/config.c:81-135 (`tls_key_path` occurs twice there). -/
def freeStrs : Sec → List Field
  | .pledge => [.createdOn, .serialNumber, .nonce, .idevidKey, .idevidCert, .idevidCaCert, .cmsSignCert, .cmsSignKey]
  | .registrar => [.bindAddress, .tlsCert, .tlsKey, .tlsCaKey, .tlsCaCert, .cmsSignCert, .cmsSignKey]
  | .masa => [.bindAddress, .expiresOn, .ldevidCaCert, .tlsKey, .tlsCert, .tlsKey, .tlsCaCert, .cmsSignCert, .cmsSignKey]

/-- All members of a section in the order of release (/repo/src/brski/config.c:81-135,274-318,448-497). -/
def sectionSlots (s : Sec) : List Slot :=
  (freeStrs s).map (.str s) ++ [.list s .add, .list s .verifyCerts, .list s .verifyStore]

/-- `free_pledge_config_content`, `free_registrar_config_content`, `free_masa_config_content`
(/repo/src/brski/config.c:448-497,274-318,81-135). -/
def freeSection (m : Mem) (c : Conf) (s : Sec) : Outcome (Mem × Conf) := freeSlots m c (sectionSlots s)

/-- `free_config_content`, /repo/src/brski/config.c:637-641. -/
def freeConfig (m : Mem) (c : Conf) : Outcome (Mem × Conf) :=
  (freeSection m c .pledge).bind fun r =>
  (freeSection r.1 r.2 .registrar).bind fun r =>
  freeSection r.1 r.2 .masa

/-- How a string member is read: key, default and buffer size (/repo/src/brski/config.c:145-147). -/
structure StrSpec where
  field : Field
  key : Bytes
  dflt : Bytes
  size : Nat

/-- The string members in the order in which they are read:
`load_pledge_config` /repo/src/brski/config.c:499-612,
`load_registrar_config` /repo/src/brski/config.c:320-422,
`load_masa_config` /repo/src/brski/config.c:137-248. -/
def loadStrs : Sec → List StrSpec
  | .pledge =>
    [⟨.createdOn, str "createdOn", [], timeSize⟩, ⟨.serialNumber, str "serialNumber", [], maxValue⟩,
     ⟨.nonce, str "nonce", [], maxValue⟩, ⟨.idevidKey, str "idevidKeyPath", [], maxValue⟩,
     ⟨.idevidCert, str "idevidCertPath", [], maxValue⟩, ⟨.idevidCaCert, str "idevidCACertPath", [], maxValue⟩,
     ⟨.cmsSignCert, str "cmsSignCertPath", [], maxValue⟩, ⟨.cmsSignKey, str "cmsSignKeyPath", [], maxValue⟩]
  | .registrar =>
    [⟨.bindAddress, str "bindAddress", str "0.0.0.0", maxValue⟩, ⟨.tlsCert, str "tlsCertPath", [], maxValue⟩,
     ⟨.tlsKey, str "tlsKeyPath", [], maxValue⟩, ⟨.tlsCaKey, str "tlsCAKeyPath", [], maxValue⟩,
     ⟨.tlsCaCert, str "tlsCACertPath", [], maxValue⟩, ⟨.cmsSignCert, str "cmsSignCertPath", [], maxValue⟩,
     ⟨.cmsSignKey, str "cmsSignKeyPath", [], maxValue⟩]
  | .masa =>
    [⟨.bindAddress, str "bindAddress", str "0.0.0.0", maxValue⟩, ⟨.expiresOn, str "expiresOn", [], timeSize⟩,
     ⟨.ldevidCaCert, str "ldevidCACertPath", [], maxValue⟩, ⟨.tlsCert, str "tlsCertPath", [], maxValue⟩,
     ⟨.tlsKey, str "tlsKeyPath", [], maxValue⟩, ⟨.tlsCaCert, str "tlsCACertPath", [], maxValue⟩,
     ⟨.cmsSignCert, str "cmsSignCertPath", [], maxValue⟩, ⟨.cmsSignKey, str "cmsSignKeyPath", [], maxValue⟩]

/-- Section names (/repo/src/brski/config.c:145,330,509). -/
def secName : Sec → Bytes
  | .pledge => str "pledge"
  | .registrar => str "registrar"
  | .masa => str "masa"

/-- Keys of the list members (/repo/src/brski/config.c:250-269). -/
def listKey : LField → Bytes
  | .add => str "cmsAdditionalCertPath"
  | .verifyCerts => str "cmsVerifyCertPath"
  | .verifyStore => str "cmsVerifyStorePath"

/-- Reading of the string members, e.g. /repo/src/brski/config.c:140-152: an allocation failure
leads to the failure exit (`false`); an empty text is released and the member set to NULL.  The member is
overwritten without looking at its old value. -/
def loadStrLoop (al : Nat → Bool) (file : IniFile) (s : Sec) : Nat → List StrSpec → Mem → Conf →
    Outcome (Mem × Conf × Bool)
  | _, [], m, c => .ok (m, c, true)
  | k, d :: ds, m, c =>
    if al k then
      let value := gets file (secName s) d.key d.dflt d.size
      let r := m.newData (textBlock d.size value)
      if value = [] then
        (r.1.freeData r.2).bind fun m => loadStrLoop al file s (k + 1) ds m (c.put (.str s d.field) none)
      else loadStrLoop al file s (k + 1) ds r.1 (c.put (.str s d.field) (some r.2))
    else .ok (m, c, false)

/-- Reading of the list members, e.g. /repo/src/brski/config.c:250-269. -/
def loadListLoop (al : LField → Nat → Bool) (file : IniFile) (s : Sec) : List LField → Mem → Conf →
    Outcome (Mem × Conf × Bool)
  | [], m, c => .ok (m, c, true)
  | l :: ls, m, c =>
    (loadValueList (al l) file (secName s) (listKey l) m).bind fun r =>
    let c := c.put (.list s l) r.2.1
    if r.2.2 then loadListLoop al file s ls r.1 c else .ok (r.1, c, false)

/-- Which allocations succeed while a section is loaded: strings, and the three lists
(/repo/src/brski/config.c:137-271). -/
structure Alloc where
  str : Nat → Bool
  list : LField → Nat → Bool

/-- `load_pledge_config`, `load_registrar_config`, `load_masa_config`
(/repo/src/brski/config.c:499-635,320-446,137-271): on every failure the section is released. -/
def loadSection (al : Alloc) (file : IniFile) (s : Sec) (m : Mem) (c : Conf) : Outcome (Mem × Conf × Bool) :=
  (loadStrLoop al.str file s 0 (loadStrs s) m c).bind fun r =>
  if r.2.2 then
    (loadListLoop al.list file s [.add, .verifyCerts, .verifyStore] r.1 r.2.1).bind fun r =>
    if r.2.2 then .ok r
    else (freeSection r.1 r.2.1 s).bind fun q => .ok (q.1, q.2, false)
  else (freeSection r.1 r.2.1 s).bind fun q => .ok (q.1, q.2, false)

/-- Sections in the order of `load_brski_config` with the failure exits,
/repo/src/brski/config.c:652-668. -/
def loadSections (al : Sec → Alloc) (file : IniFile) : List Sec → Mem → Conf → Outcome (Mem × Conf × Bool)
  | [], m, c => .ok (m, c, true)
  | s :: ss, m, c =>
    (loadSection (al s) file s m c).bind fun r =>
    if r.2.2 then loadSections al file ss r.1 r.2.1
    else (freeConfig r.1 r.2.1).bind fun q => .ok (q.1, q.2, false)

/-- `load_brski_config`, /repo/src/brski/config.c:643-671; `none` is a file that cannot be opened. -/
def loadConfig (al : Sec → Alloc) (file : Option IniFile) (m : Mem) (c : Conf) : Outcome (Mem × Conf × Bool) :=
  match file with
  | none => .ok (m, c, false)
  | some file => loadSections al file [.pledge, .registrar, .masa] m c

/-! ## Certificate files -/

/-- The C string in a path element (`(char *)cert_path->arr`, /repo/src/brski/config.c:693). -/
def pathOf (ds : List Bytes) : Outcome Bytes :=
  match ds with
  | b :: _ => if (0 : UInt8) ∈ b then .ok (b.takeWhile (· ≠ 0)) else .ub
  | [] => .ub

/-- The loop of `load_cert_files`, /repo/src/brski/config.c:690-707, over the elements still to be
visited.  `files` is `file_to_x509buf` (/repo/src/voucher/crypto_ossl.c:286-322): the DER form of the
certificate in a file, `none` for NULL (also on memory exhaustion); its result is one block here, the
structure around it is not modelled separately.  The memory is followed by the return value. -/
def certLoop (al : Nat → Oracle) (files : Nat → Bytes → Option Bytes) (out : Nat) : Nat → List Nat → Mem →
    Outcome (Mem × Bool)
  | _, [], m => .ok (m, true)
  | k, e :: es, m =>
    (readEl m e).bind fun el =>
    (pathOf el.1).bind fun path =>
    match files k path with
    | none => (freeList m (some out)).bind fun m => .ok (m, false)
    | some der =>
      let r := m.newData der
      (pushArray (al k) r.1 (some out) (some der) der.length 0).bind fun p =>
      (p.1.freeData r.2).bind fun m =>
      if p.2 then certLoop al files out (k + 1) es m
      else (freeList m (some out)).bind fun m => .ok (m, false)

/-- `load_cert_files`, /repo/src/brski/config.c:673-710: memory, the pointer left in `*out`, and the
return value.  The list of paths is not changed by the loop, its elements are determined in advance. -/
def loadCertFiles (al0 : Bool) (al : Nat → Oracle) (files : Nat → Bytes → Option Bytes) (m : Mem)
    (paths : Option Nat) : Outcome (Mem × Option Nat × Bool) :=
  match paths with
  | none => .ok (m, none, true)
  | some paths =>
    (len m paths).bind fun n =>
    if n = 0 then .ok (m, none, true)
    else
      (initList (fun _ => al0) m).bind fun l =>
      match l.2 with
      | none => .ok (l.1, none, false)
      | some out =>
        (each l.1 paths).bind fun els =>
        (certLoop al files out 0 els l.1).bind fun p => .ok (p.1, some out, p.2)

end Brski.Config
