import Verif.Base

/-!
# Ownership of library objects (model)

The functions of /repo/src/voucher/crypto_ossl.c:60-1694 seen as sequences of acquisitions and
releases of counted references.  Contents are left out: whether a library call succeeds is drawn from
an arbitrary tape, so that all theorems hold for every pattern of failures.

References that OpenSSL keeps inside its own objects (`X509_set_pubkey`, `X509_STORE_add_cert`,
`CMS_sign`) and releases together with them are not tracked, except those of a verified message to its
signers' certificates, which `CMS_get0_signers` lends to the caller.  What OpenSSL does with
references is taken from its naming convention (`get0` lends, `set1` and `add1` take a reference of
their own); its source was not at hand.  Buffers made by OpenSSL are released with `free`
(/repo/src/utils/os.h:50), which is right for its default allocator.
-/

namespace Brski.Res
open Outcome

/-- The kinds of objects acquired in /repo/src/voucher/crypto_ossl.c:60-1694. -/
inductive Kind where
  | mem | file | x509 | crl | pkey | pctx | bio | cms | stack | store | name | asn1 | ext
deriving Repr, DecidableEq

/-- An object is named by a number (pointers of /repo/src/voucher/crypto_ossl.c:60-1694). -/
abbrev Id := Nat

/-- The state of the library during /repo/src/voucher/crypto_ossl.c:60-1694: the results of the calls
to come (`tape` from `pos` on), the first name not yet used, kind and number of references of each
object, and how many names are left out when an object is made (`gap`): the allocator chooses. -/
structure St where
  tape : Nat → Int
  pos : Nat
  next : Nat
  kind : Nat → Kind
  cnt : Nat → Nat
  gap : Nat → Nat

/-- A piece of /repo/src/voucher/crypto_ossl.c:60-1694, as the tree of the steps it may take: the result of
a call, a new object, a use, a reference given back, another reference. -/
inductive Prog (α : Type) where
  | ret (a : α)
  | ub
  | draw (f : Int → Prog α)
  | fresh (k : Kind) (f : Id → Prog α)
  | use (k : Kind) (i : Id) (p : Prog α)
  | drop (k : Kind) (i : Id) (p : Prog α)
  | up (k : Kind) (i : Id) (p : Prog α)

/-- The program is followed by another (/repo/src/voucher/crypto_ossl.c:60-1694). -/
def Prog.andThen {α β : Type} : Prog α → (α → Prog β) → Prog β
  | .ret a, f => f a
  | .ub, _ => .ub
  | .draw g, f => .draw fun r => (g r).andThen f
  | .fresh k g, f => .fresh k fun i => (g i).andThen f
  | .use k i p, f => .use k i (p.andThen f)
  | .drop k i p, f => .drop k i (p.andThen f)
  | .up k i p, f => .up k i (p.andThen f)

/-- Sequencing of C statements (/repo/src/voucher/crypto_ossl.c:60-1694). -/
instance : Monad Prog where
  pure := .ret
  bind := .andThen

/-- An object is alive and of the kind (/repo/src/voucher/crypto_ossl.c:60-1694). -/
abbrev St.Has (s : St) (k : Kind) (i : Id) : Prop := 0 < s.cnt i ∧ s.kind i = k

/-- The object `i` is made (/repo/src/voucher/crypto_ossl.c:60-1694). -/
def St.make (s : St) (k : Kind) (i : Id) : St :=
  { s with
    next := i + 1
    kind := fun j => if j = i then k else s.kind j
    cnt := fun j => if j = i then 1 else s.cnt j }

/-- The number of references to an object changes (/repo/src/voucher/crypto_ossl.c:60-1694). -/
def St.setCnt (s : St) (i : Id) (n : Nat) : St := { s with cnt := fun j => if j = i then n else s.cnt j }

/-- A run without disturbance (/repo/src/voucher/crypto_ossl.c:60-1694): what is used, given back or
referenced again must exist and be of the right kind. -/
def Prog.run {α : Type} : Prog α → St → Outcome (α × St)
  | .ret a, s => .ok (a, s)
  | .ub, _ => .ub
  | .draw f, s => (f (s.tape s.pos)).run { s with pos := s.pos + 1 }
  | .fresh k f, s => (f (s.next + s.gap s.next)).run (s.make k (s.next + s.gap s.next))
  | .use k i p, s => if s.Has k i then p.run s else .ub
  | .drop k i p, s => if s.Has k i then p.run (s.setCnt i (s.cnt i - 1)) else .ub
  | .up k i p, s => if s.Has k i then p.run (s.setCnt i (s.cnt i + 1)) else .ub

/-- Programs are run by application (/repo/src/voucher/crypto_ossl.c:60-1694). -/
instance {α : Type} : CoeFun (Prog α) fun _ => St → Outcome (α × St) := ⟨Prog.run⟩

/-- Which of the results that /repo/src/voucher/crypto_ossl.c ignores or handles incompletely are
good: `X509_set_pubkey` (1018,1082), the pushes of 1206, `X509_STORE_add_cert` and
`X509_STORE_add_crl` (1264,1280), `push_ptr_list` (1289); and whether the stack of `CMS_get0_signers`
(1564) comes with references of its own (by the naming convention it does not); `copy`: the copies
made by `push_array_list` (/repo/src/voucher/array.c:76); `negative`: whether `EVP_PKEY_paramgen` and
`EVP_PKEY_keygen` (455,509,534) report some failures by a negative number, as their manual says; `dup`:
the copies of key and value made by `push_keyvalue_list` (/repo/src/voucher/keyvalue.c:92,99). -/
structure Lib where
  setPubkey : Bool
  stackPush : Nat → Bool
  storeAdd : Nat → Bool
  listPush : Nat → Bool
  signersOwned : Bool
  copy : Nat → Bool
  negative : Bool
  dup : Nat → Bool

/-- Undefined behaviour, e.g. a NULL pointer given to `i2d_PrivateKey`
(/repo/src/voucher/crypto_ossl.c:253). -/
def undefined {α : Type} : Prog α := .ub

/-- The integer result of a library call (/repo/src/voucher/crypto_ossl.c:60-1694). -/
def draw : Prog Int := .draw .ret

/-- A call tested with `!` (e.g. /repo/src/voucher/crypto_ossl.c:155). -/
def yes : Prog Bool := do
  let r ← draw
  pure (r != 0)

/-- A new object with one reference (/repo/src/voucher/crypto_ossl.c:60-1694). -/
def fresh (k : Kind) : Prog Id := .fresh k .ret

/-- A call that returns a new object or NULL (e.g. /repo/src/voucher/crypto_ossl.c:147). -/
def mk (k : Kind) : Prog (Option Id) := do
  let r ← yes
  if r then some <$> fresh k else pure none

/-- An object is used: it must exist and be of the right kind
(e.g. /repo/src/voucher/crypto_ossl.c:155). -/
def use (k : Kind) (i : Id) : Prog Unit := .use k i (.ret ())

/-- A reference is given back, e.g. `X509_free` (/repo/src/voucher/crypto_ossl.c:193). -/
def drop (k : Kind) (i : Id) : Prog Unit := .drop k i (.ret ())

/-- Releasing NULL has no effect (e.g. /repo/src/voucher/crypto_ossl.c:1423). -/
def dropO (k : Kind) : Option Id → Prog Unit
  | none => pure ()
  | some i => drop k i

/-- Several references are given back (`sk_X509_pop_free`, /repo/src/voucher/crypto_ossl.c:1203). -/
def dropAll (k : Kind) : List Id → Prog Unit
  | [] => pure ()
  | i :: l => do
    drop k i
    dropAll k l

/-- Another reference is taken (OpenSSL's `up_ref`, inside the calls of
/repo/src/voucher/crypto_ossl.c:1339,1661). -/
def up (k : Kind) (i : Id) : Prog Unit := .up k i (.ret ())

/-- References to several objects (/repo/src/voucher/crypto_ossl.c:1339,1661). -/
def upAll (k : Kind) : List Id → Prog Unit
  | [] => pure ()
  | i :: l => do
    up k i
    upAll k l

/-- The library chooses some of the objects, in any order and number
(/repo/src/voucher/crypto_ossl.c:1339,1661). -/
def choose (l : List Id) : Nat → Prog (List Id)
  | 0 => pure []
  | n + 1 => do
    let r ← draw
    let rest ← choose l n
    match l[r.toNat]? with
    | none => pure rest
    | some i => pure (i :: rest)

/-- New objects of one kind (certificates inside a message, /repo/src/voucher/crypto_ossl.c:130). -/
def freshes (k : Kind) : Nat → Prog (List Id)
  | 0 => pure []
  | n + 1 => do
    let i ← fresh k
    let l ← freshes k n
    pure (i :: l)

/-! ## Buffers and files -/

/-- A `struct BinaryArray` on the heap (/repo/src/voucher/array.h:155-158): the structure and its
array. -/
structure Bin where
  hd : Id
  arr : Option Id
deriving Repr, DecidableEq

/-- `free_binary_array`, /repo/src/voucher/array.c:142-159. -/
def freeBin (b : Bin) : Prog Unit := do
  dropO .mem b.arr
  drop .mem b.hd

/-- `cert_to_derbuf`, /repo/src/voucher/crypto_ossl.c:232-248; `none` is -1. -/
def certToDer (x : Id) : Prog (Option Id) := do
  use .x509 x
  mk .mem

/-- `evpkey_to_derbuf`, /repo/src/voucher/crypto_ossl.c:250-261; `i2d_PrivateKey` must not be given
NULL. -/
def keyToDer : Option Id → Prog (Option Id)
  | none => undefined
  | some p => do
    use .pkey p
    mk .mem

/-- `derbuf_to_cms`, /repo/src/voucher/crypto_ossl.c:127-138. -/
def derToCms : Prog (Option Id) := mk .cms

/-- `cmsbuf_to_file` with non-NULL `cms`, /repo/src/voucher/crypto_ossl.c:140-172; `true` is 0. -/
def cmsToFile : Prog Bool := do
  match ← derToCms with
  | none => pure false
  | some c =>
    match ← mk .bio with
    | none => do
      drop .cms c
      pure false
    | some out => do
      use .cms c
      use .bio out
      match ← yes with
      | false => do
        drop .bio out
        drop .cms c
        pure false
      | true => do
        drop .bio out
        drop .cms c
        pure true

/-- `certbuf_to_file`, /repo/src/voucher/crypto_ossl.c:174-201. -/
def certToFile : Prog Bool := do
  match ← mk .file with
  | none => pure false
  | some fp =>
    match ← mk .x509 with
    | none => do
      drop .file fp
      pure false
    | some x => do
      use .file fp
      use .x509 x
      match ← yes with
      | false => do
        drop .file fp
        drop .x509 x
        pure false
      | true => do
        drop .file fp
        drop .x509 x
        pure true

/-- `keybuf_to_file`, /repo/src/voucher/crypto_ossl.c:203-230. -/
def keyToFile : Prog Bool := do
  match ← mk .file with
  | none => pure false
  | some fp =>
    match ← mk .pkey with
    | none => do
      drop .file fp
      pure false
    | some p => do
      use .file fp
      use .pkey p
      match ← yes with
      | false => do
        drop .file fp
        drop .pkey p
        pure false
      | true => do
        drop .file fp
        drop .pkey p
        pure true

/-- `crypto_cert2buf`, /repo/src/voucher/crypto_ossl.c:263-284. -/
def certToBuf : Option Id → Prog (Option Bin)
  | none => pure none
  | some x => do
    match ← mk .mem with
    | none => pure none
    | some hd =>
      match ← certToDer x with
      | none => do
        freeBin ⟨hd, none⟩
        pure none
      | some a => pure (some ⟨hd, some a⟩)

/-- `file_to_x509buf`, /repo/src/voucher/crypto_ossl.c:286-322. -/
def fileToCert : Prog (Option Bin) := do
  match ← mk .file with
  | none => pure none
  | some fp => do
    use .file fp
    match ← mk .x509 with
    | none => do
      drop .file fp
      pure none
    | some x => do
      drop .file fp
      match ← mk .mem with
      | none => do
        drop .x509 x
        pure none
      | some hd =>
        match ← certToDer x with
        | none => do
          drop .x509 x
          freeBin ⟨hd, none⟩
          pure none
        | some a => do
          drop .x509 x
          pure (some ⟨hd, some a⟩)

/-- `file_to_keybuf`, /repo/src/voucher/crypto_ossl.c:324-360. -/
def fileToKey : Prog (Option Bin) := do
  match ← mk .file with
  | none => pure none
  | some fp => do
    use .file fp
    match ← mk .pkey with
    | none => do
      drop .file fp
      pure none
    | some p => do
      drop .file fp
      match ← mk .mem with
      | none => do
        drop .pkey p
        pure none
      | some hd =>
        match ← keyToDer (some p) with
        | none => do
          drop .pkey p
          freeBin ⟨hd, none⟩
          pure none
        | some a => do
          drop .pkey p
          pure (some ⟨hd, some a⟩)

/-- `bio_to_ptr`, /repo/src/voucher/crypto_ossl.c:362-379: outer `none` is -1, inner `none` the NULL
pointer left for an empty content. -/
def bioToPtr (b : Id) : Prog (Option (Option Id)) := do
  use .bio b
  match ← yes with
  | false => pure (some none)
  | true =>
    match ← mk .mem with
    | none => pure none
    | some d => pure (some (some d))

/-- `cms_to_derbuf`, /repo/src/voucher/crypto_ossl.c:381-408. -/
def cmsToDer (c : Id) : Prog (Option (Option Id)) := do
  match ← mk .bio with
  | none => pure none
  | some m => do
    use .cms c
    match ← yes with
    | false => do
      drop .bio m
      pure none
    | true =>
      match ← bioToPtr m with
      | none => do
        drop .bio m
        pure none
      | some d => do
        drop .bio m
        pure (some d)

/-! ## Keys -/

/-- `EVP_PKEY_paramgen` or `EVP_PKEY_keygen` (/repo/src/voucher/crypto_ossl.c:455,509,534): whether the
result is not 0, which is what the code tests, and the output parameter, which is filled in only on
success (a positive result). -/
def keygen (lib : Lib) : Prog (Bool × Option Id) := do
  let r ← draw
  if 0 < r then do
    let p ← fresh .pkey
    pure (true, some p)
  else pure (lib.negative && r != 0, none)

/-- `crypto_generate_rsakey`, /repo/src/voucher/crypto_ossl.c:422-477.  The results are tested with
`!`. -/
def genRsaKey (lib : Lib) : Prog (Option Bin) := do
  match ← mk .mem with
  | none => pure none
  | some hd =>
    match ← mk .pctx with
    | none => do
      freeBin ⟨hd, none⟩
      pure none
    | some ctx => do
      use .pctx ctx
      match ← yes with
      | false => do
        drop .pctx ctx
        freeBin ⟨hd, none⟩
        pure none
      | true => do
        match ← yes with
        | false => do
          drop .pctx ctx
          freeBin ⟨hd, none⟩
          pure none
        | true => do
          match ← keygen lib with
          | (false, _) => do
            drop .pctx ctx
            freeBin ⟨hd, none⟩
            pure none
          | (true, pkey) => do
            drop .pctx ctx
            match ← keyToDer pkey with
            | none => do
              dropO .pkey pkey
              freeBin ⟨hd, none⟩
              pure none
            | some a => do
              dropO .pkey pkey
              pure (some ⟨hd, some a⟩)

/-- `EVP_PKEY_CTX_new(params, NULL)`, /repo/src/voucher/crypto_ossl.c:518: NULL without a key. -/
def ctxNew : Option Id → Prog (Option Id)
  | none => pure none
  | some p => do
    use .pkey p
    mk .pctx

/-- `crypto_generate_eckey` for a non-NULL `key`, /repo/src/voucher/crypto_ossl.c:479-553. -/
def genEcKey (lib : Lib) : Prog (Option Id) := do
  match ← mk .pctx with
  | none => pure none
  | some ctx => do
    use .pctx ctx
    match ← yes with
    | false => do
      drop .pctx ctx
      pure none
    | true => do
      match ← yes with
      | false => do
        drop .pctx ctx
        pure none
      | true => do
        match ← keygen lib with
        | (false, _) => do
          drop .pctx ctx
          pure none
        | (true, params) => do
          drop .pctx ctx
          match ← ctxNew params with
          | none => do
            dropO .pkey params
            pure none
          | some ctx => do
            dropO .pkey params
            use .pctx ctx
            match ← yes with
            | false => do
              drop .pctx ctx
              pure none
            | true => do
              match ← keygen lib with
              | (false, _) => do
                drop .pctx ctx
                pure none
              | (true, pkey) =>
                match ← keyToDer pkey with
                | none => do
                  dropO .pkey pkey
                  drop .pctx ctx
                  pure none
                | some a => do
                  dropO .pkey pkey
                  drop .pctx ctx
                  pure (some a)

/-! ## Certificates -/

/-- `crypto_copycert`, /repo/src/voucher/crypto_ossl.c:603-617.  The result -1 of `cert_to_derbuf` is
not 0 as a `size_t`, so `d2i_X509` is called with a NULL pointer and the length -1, which it refuses. -/
def copyCert : Option Id → Prog (Option Id)
  | none => pure none
  | some x => do
    match ← certToDer x with
    | none => pure none
    | some b => do
      let y ← mk .x509
      drop .mem b
      pure y

/-- `get_x509_entry`, /repo/src/voucher/crypto_ossl.c:636-667: -1, no such entry, or a text made by
`ASN1_STRING_to_UTF8`. -/
def getEntry : Prog (Option (Option Id)) := do
  match ← yes with
  | false => pure (some none)
  | true =>
    match ← mk .mem with
    | none => pure none
    | some t => pure (some (some t))

/-- `push_keyvalue_list` of a non-NULL list, key and value, /repo/src/voucher/keyvalue.c:68-109: an
element, and copies of key and value.  When a copy cannot be made the element is unlinked before it was
linked, through NULL pointers (/repo/src/voucher/keyvalue.c:48,95,102). -/
def pushKv (lib : Lib) (l : List (Id × Id × Id)) : Prog (Option (List (Id × Id × Id))) := do
  match ← mk .mem with
  | none => pure none
  | some el =>
    match lib.dup l.length with
    | false => undefined
    | true => do
      let k ← fresh .mem
      let v ← fresh .mem
      pure (some (l ++ [(el, k, v)]))

/-- `get_x509_keyvalue` with a number of names still to go (10 at first),
/repo/src/voucher/crypto_ossl.c:669-690; the elements put in the list stay there. -/
def keyLoop (lib : Lib) (l : List (Id × Id × Id)) : Nat → Prog (Bool × List (Id × Id × Id))
  | 0 => pure (true, l)
  | n + 1 => do
    match ← getEntry with
    | none => pure (false, l)
    | some none => keyLoop lib l n
    | some (some t) =>
      match ← pushKv lib l with
      | none => do
        drop .mem t
        pure (false, l)
      | some l => do
        drop .mem t
        keyLoop lib l n

/-- `crypto_getcert_meta` with empty lists in `meta`, /repo/src/voucher/crypto_ossl.c:692-745: the result
and the two lists; serial number and names belong to the certificate. -/
def certMeta (lib : Lib) : Option Id → Prog (Bool × List (Id × Id × Id) × List (Id × Id × Id))
  | none => pure (false, [], [])
  | some x => do
    use .x509 x
    match ← yes with
    | false => pure (false, [], [])
    | true => do
      let i ← keyLoop lib [] 10
      match i.1 with
      | false => pure (false, i.2, [])
      | true => do
        use .x509 x
        match ← yes with
        | false => pure (false, i.2, [])
        | true => do
          let t ← keyLoop lib [] 10
          pure (t.1, i.2, t.2)

/-- `crypto_getcert_issuer`, /repo/src/voucher/crypto_ossl.c:747-795; the name belongs to the
certificate. -/
def certIssuer : Option Id → Prog (Option Bin)
  | none => pure none
  | some x => do
    use .x509 x
    match ← yes with
    | false => pure none
    | true =>
      match ← mk .bio with
      | none => pure none
      | some m => do
        let r ← draw
        if r < 0 then do
          drop .bio m
          pure none
        else
          match ← mk .mem with
          | none => do
            drop .bio m
            pure none
          | some hd => do
            let d ← bioToPtr m
            drop .bio m
            match d with
            | none => do
              freeBin ⟨hd, none⟩
              pure none
            | some d => pure (some ⟨hd, d⟩)

/-- `set_certificate_serialnumber`, /repo/src/voucher/crypto_ossl.c:797-820; `true` is 0. -/
def setSerial (x : Id) : Prog Bool := do
  match ← mk .asn1 with
  | none => pure false
  | some sn =>
    match ← yes with
    | false => do
      drop .asn1 sn
      pure false
    | true => do
      use .x509 x
      match ← yes with
      | false => do
        drop .asn1 sn
        pure false
      | true => do
        drop .asn1 sn
        pure true

/-- The loop of `add_x509name_keyvalues`, /repo/src/voucher/crypto_ossl.c:831-851; each pair says
whether key and value are there. -/
def addNames (name : Id) : List (Bool × Bool) → Prog (Option Id)
  | [] => pure (some name)
  | (key, value) :: l =>
    match key with
    | false => do
      drop .name name
      pure none
    | true =>
      match value with
      | false => do
        drop .name name
        pure none
      | true => do
        use .name name
        match ← yes with
        | false => do
          drop .name name
          pure none
        | true => addNames name l

/-- `add_x509name_keyvalues`, /repo/src/voucher/crypto_ossl.c:822-854. -/
def mkName (pairs : List (Bool × Bool)) : Prog (Option Id) := do
  match ← mk .name with
  | none => pure none
  | some n => addNames n pairs

/-- What `set_certificate_meta` looks at in `struct crypto_cert_meta`
(/repo/src/voucher/crypto.h:25-75): whether `not_after_absolute` and `not_after` are set, the names
and the constraints. -/
structure Meta where
  absolute : Bool
  relative : Bool
  issuer : Option (List (Bool × Bool))
  subject : Option (List (Bool × Bool))
  constraints : Bool

/-- The validity in `set_certificate_meta`, /repo/src/voucher/crypto_ossl.c:870-908.
`ASN1_TIME_normalize` fails for NULL. -/
def setAfter (x : Id) (m : Meta) : Prog Bool :=
  match m.absolute with
  | true =>
    match m.relative with
    | true => pure false
    | false => do
      let t ← mk .asn1
      match ← yes with
      | false => do
        dropO .asn1 t
        pure false
      | true =>
        match t with
        | none => pure false
        | some t =>
          match ← yes with
          | false => do
            drop .asn1 t
            pure false
          | true => do
            use .x509 x
            match ← yes with
            | false => do
              drop .asn1 t
              pure false
            | true => do
              drop .asn1 t
              pure true
  | false => do
    use .x509 x
    yes

/-- Issuer or subject in `set_certificate_meta`, /repo/src/voucher/crypto_ossl.c:910-940. -/
def setName (x : Id) : Option (List (Bool × Bool)) → Prog Bool
  | none => pure true
  | some pairs => do
    match ← mkName pairs with
    | none => pure false
    | some n => do
      use .x509 x
      match ← yes with
      | false => do
        drop .name n
        pure false
      | true => do
        drop .name n
        pure true

/-- The extension in `set_certificate_meta`, /repo/src/voucher/crypto_ossl.c:942-957. -/
def setConstraints (x : Id) : Bool → Prog Bool
  | false => pure true
  | true => do
    match ← mk .ext with
    | none => pure false
    | some e => do
      use .x509 x
      match ← yes with
      | false => do
        drop .ext e
        pure false
      | true => do
        drop .ext e
        pure true

/-- `set_certificate_meta`, /repo/src/voucher/crypto_ossl.c:856-960. -/
def setMeta (x : Id) (m : Meta) : Prog Bool := do
  use .x509 x
  match ← yes with
  | false => pure false
  | true =>
    match ← setSerial x with
    | false => pure false
    | true =>
      match ← yes with
      | false => pure false
      | true =>
        match ← setAfter x m with
        | false => pure false
        | true =>
          match ← setName x m.issuer with
          | false => pure false
          | true =>
            match ← setName x m.subject with
            | false => pure false
            | true => setConstraints x m.constraints

/-- `sign_sha256_certificate`, /repo/src/voucher/crypto_ossl.c:962-976. -/
def signSha (x p : Id) : Prog Bool := do
  use .x509 x
  use .pkey p
  match ← yes with
  | false => pure false
  | true => do
    use .x509 x
    use .pkey p
    let r ← draw
    pure !(r < 1)

/-- `crypto_generate_eccert` and `crypto_generate_rsacert`, /repo/src/voucher/crypto_ossl.c:978-1104.
The arguments say whether `meta`, `key` and `cert` are there; `*cert` is written before `cert` is
tested.  When `X509_set_pubkey` fails nothing is released (1018-1022,1082-1086). -/
def genCert (lib : Lib) (m : Option Meta) (key cert : Bool) : Prog (Option Id) :=
  match cert with
  | false => undefined
  | true =>
    match m with
    | none => pure none
    | some m =>
      match key with
      | false => pure none
      | true => do
        match ← mk .x509 with
        | none => pure none
        | some x =>
          match ← setMeta x m with
          | false => do
            drop .x509 x
            pure none
          | true =>
            match ← mk .pkey with
            | none => do
              drop .x509 x
              pure none
            | some p => do
              use .x509 x
              use .pkey p
              match lib.setPubkey with
              | false => pure none
              | true =>
                match ← signSha x p with
                | false => do
                  drop .pkey p
                  drop .x509 x
                  pure none
                | true => do
                  let d ← certToDer x
                  drop .pkey p
                  drop .x509 x
                  pure d

/-- `crypto_sign_cert`, /repo/src/voucher/crypto_ossl.c:1106-1186, for non-NULL `sign_key` and `cert`;
`old` is the buffer `*cert`.  The second result is the buffer afterwards, the first whether a length
is returned. -/
def signCert : Option Id → Prog (Bool × Option Id)
  | none => pure (false, none)
  | some old => do
    match ← mk .pkey with
    | none => pure (false, some old)
    | some p =>
      match ← mk .x509 with
      | none => do
        drop .pkey p
        pure (false, some old)
      | some ca => do
        use .mem old
        match ← mk .x509 with
        | none => do
          drop .x509 ca
          drop .pkey p
          pure (false, some old)
        | some x => do
          use .x509 ca
          match ← yes with
          | false => do
            drop .x509 ca
            drop .x509 x
            drop .pkey p
            pure (false, some old)
          | true => do
            use .x509 x
            use .x509 ca
            match ← yes with
            | false => do
              drop .x509 ca
              drop .x509 x
              drop .pkey p
              pure (false, some old)
            | true =>
              match ← signSha x p with
              | false => do
                drop .x509 ca
                drop .x509 x
                drop .pkey p
                pure (false, some old)
              | true =>
                match ← certToDer x with
                | none => do
                  drop .x509 ca
                  drop .x509 x
                  drop .pkey p
                  pure (false, some old)
                | some d => do
                  drop .mem old
                  drop .x509 ca
                  drop .x509 x
                  drop .pkey p
                  pure (true, some d)

/-! ## Stacks and stores -/

/-- A `STACK_OF(X509)` with its references (/repo/src/voucher/crypto_ossl.c:1190). -/
structure Stack where
  id : Id
  elems : List Id
deriving Repr, DecidableEq

/-- `sk_X509_pop_free(stack, X509_free)` (/repo/src/voucher/crypto_ossl.c:1203). -/
def popFree (st : Stack) : Prog Unit := do
  dropAll .x509 st.elems
  drop .stack st.id

/-- `sk_X509_pop_free` of a pointer that may be NULL (/repo/src/voucher/crypto_ossl.c:1414). -/
def popFreeO : Option Stack → Prog Unit
  | none => pure ()
  | some st => popFree st

/-- The loop of `get_certificate_stack`, /repo/src/voucher/crypto_ossl.c:1199-1207, for `n` elements
from number `k` on.  The result of `sk_X509_push` is ignored. -/
def stackLoop (lib : Lib) (st : Stack) (k : Nat) : Nat → Prog (Option Stack)
  | 0 => pure (some st)
  | n + 1 => do
    match ← mk .x509 with
    | none => do
      popFree st
      pure none
    | some x => do
      use .stack st.id
      match lib.stackPush k with
      | false => stackLoop lib st (k + 1) n
      | true => stackLoop lib ⟨st.id, st.elems ++ [x]⟩ (k + 1) n

/-- `get_certificate_stack`, /repo/src/voucher/crypto_ossl.c:1188-1210, for a list of `n` elements. -/
def mkStack (lib : Lib) (n : Nat) : Prog (Option Stack) := do
  match ← mk .stack with
  | none => pure none
  | some i => stackLoop lib ⟨i, []⟩ 0 n

/-- A `struct ptr_list`: the head and for each element its block, pointer and flags
(/repo/src/voucher/crypto_ossl.c:55-59). -/
structure PtrList where
  hd : Id
  els : List (Id × Id × Int)
deriving Repr, DecidableEq

/-- `free_x509_store_cert`, /repo/src/voucher/crypto_ossl.c:1212-1220. -/
def freeStoreCert (p : Id) (flags : Int) : Prog Unit :=
  if flags = 0 then drop .x509 p else if flags = 1 then drop .crl p else pure ()

/-- The elements in `free_ptr_list`, /repo/src/voucher/crypto_ossl.c:76-84,93-95. -/
def freeEls : List (Id × Id × Int) → Prog Unit
  | [] => pure ()
  | (el, p, flags) :: l => do
    freeStoreCert p flags
    drop .mem el
    freeEls l

/-- `free_x509_store`, /repo/src/voucher/crypto_ossl.c:1222-1228, with `free_ptr_list` (86-98). -/
def freeStore (st : Option Id) (l : Option PtrList) : Prog Unit := do
  dropO .store st
  match l with
  | none => pure ()
  | some l => do
    freeEls l.els
    drop .mem l.hd

/-- `push_ptr_list`, /repo/src/voucher/crypto_ossl.c:100-125, for a non-NULL pointer; `k` is the
number of the element. -/
def pushPtr (lib : Lib) (k : Nat) (l : PtrList) (p : Id) (flags : Int) : Prog (Option PtrList) :=
  match lib.listPush k with
  | false => pure none
  | true => do
    let el ← fresh .mem
    pure (some ⟨l.hd, l.els ++ [(el, p, flags)]⟩)

/-- The loop of `get_certificate_store`, /repo/src/voucher/crypto_ossl.c:1252-1294, over the flags of
the elements. -/
def storeLoop (lib : Lib) (st : Id) (l : PtrList) (k : Nat) : List Int → Prog (Option PtrList)
  | [] => pure (some l)
  | flags :: fs =>
    if flags = 0 then do
      match ← mk .x509 with
      | none => do
        freeStore (some st) (some l)
        pure none
      | some x => do
        use .store st
        match lib.storeAdd k with
        | false => do
          freeStore (some st) (some l)
          pure none
        | true =>
          match ← pushPtr lib k l x flags with
          | none => do
            freeStore (some st) (some l)
            pure none
          | some l => storeLoop lib st l (k + 1) fs
    else if flags = 1 then do
      match ← mk .crl with
      | none => do
        freeStore (some st) (some l)
        pure none
      | some x => do
        use .store st
        match lib.storeAdd k with
        | false => do
          freeStore (some st) (some l)
          pure none
        | true =>
          match ← pushPtr lib k l x flags with
          | none => do
            freeStore (some st) (some l)
            pure none
          | some l => storeLoop lib st l (k + 1) fs
    else do
      freeStore (some st) (some l)
      pure none

/-- `get_certificate_store`, /repo/src/voucher/crypto_ossl.c:1230-1297.  On failure the list left in
`*x509_store_list` has been released; no caller looks at it. -/
def mkStore (lib : Lib) (flags : List Int) : Prog (Option (Id × PtrList)) := do
  match ← mk .mem with
  | none => pure none
  | some hd =>
    match ← mk .store with
    | none => do
      freeStore none (some ⟨hd, []⟩)
      pure none
    | some st =>
      match ← storeLoop lib st ⟨hd, []⟩ 0 flags with
      | none => pure none
      | some l => pure (some (st, l))

/-- The optional stack at /repo/src/voucher/crypto_ossl.c:1384-1392,1630-1637: outer `none` is
failure. -/
def mkStackO (lib : Lib) : Option Nat → Prog (Option (Option Stack))
  | none => pure (some none)
  | some n => do
    match ← mkStack lib n with
    | none => pure none
    | some st => pure (some (some st))

/-- The optional store at /repo/src/voucher/crypto_ossl.c:1325-1336,1639-1650. -/
def mkStoreO (lib : Lib) : Option (List Int) → Prog (Option (Option (Id × PtrList)))
  | none => pure (some none)
  | some fs => do
    match ← mkStore lib fs with
    | none => pure none
    | some st => pure (some (some st))

/-- Release of an optional store (/repo/src/voucher/crypto_ossl.c:1351,1685,1692). -/
def freeStoreO : Option (Id × PtrList) → Prog Unit
  | none => freeStore none none
  | some (st, l) => freeStore (some st) (some l)

/-- `X509_build_chain` as called at /repo/src/voucher/crypto_ossl.c:1339: NULL, or a stack with
references to some of the certificates. -/
def buildChain (cands : List Id) : Prog (Option Stack) := do
  match ← mk .stack with
  | none => pure none
  | some i => do
    let n ← draw
    let l ← choose cands n.toNat
    upAll .x509 l
    pure (some ⟨i, l⟩)

/-- The certificates among the elements of a store (/repo/src/voucher/crypto_ossl.c:1256-1272). -/
def storeCerts : List (Id × Id × Int) → List Id
  | [] => []
  | (_, p, flags) :: l => if flags = 0 then p :: storeCerts l else storeCerts l

/-- The certificates of an optional store (/repo/src/voucher/crypto_ossl.c:1325-1336). -/
def storeCertsO : Option (Id × PtrList) → List Id
  | none => []
  | some (_, l) => storeCerts l.els

/-- `crypto_verify_cert`, /repo/src/voucher/crypto_ossl.c:1299-1356, for non-NULL `cert` and `certs`
(the latter with `n` elements). -/
def verifyCert (lib : Lib) (n : Nat) (store : Option (List Int)) : Prog Bool := do
  match ← mk .x509 with
  | none => pure false
  | some x =>
    match ← mkStack lib n with
    | none => do
      drop .x509 x
      pure false
    | some cs =>
      match ← mkStoreO lib store with
      | none => do
        popFree cs
        drop .x509 x
        pure false
      | some st => do
        let out ← buildChain (x :: cs.elems ++ storeCertsO st)
        freeStoreO st
        popFree cs
        popFreeO out
        drop .x509 x
        pure (match out with | none => false | some o => !o.elems.isEmpty)

/-! ## Messages -/

/-- `sign_withkey_cms`, /repo/src/voucher/crypto_ossl.c:1358-1425; `p` is the key. -/
def signWithKey (lib : Lib) (p : Id) (certs : Option Nat) : Prog (Option (Option Id)) := do
  match ← mk .bio with
  | none => pure none
  | some b => do
    let r ← draw
    if r < 0 then do
      drop .bio b
      pure none
    else
      match ← mk .x509 with
      | none => do
        drop .bio b
        pure none
      | some x =>
        match ← mkStackO lib certs with
        | none => do
          drop .x509 x
          drop .bio b
          pure none
        | some cs => do
          use .x509 x
          use .pkey p
          use .bio b
          match ← mk .cms with
          | none => do
            drop .x509 x
            popFreeO cs
            drop .bio b
            pure none
          | some c =>
            match ← cmsToDer c with
            | none => do
              drop .x509 x
              popFreeO cs
              drop .bio b
              drop .cms c
              pure none
            | some d => do
              drop .x509 x
              popFreeO cs
              drop .bio b
              drop .cms c
              pure (some d)

/-- `crypto_sign_eccms`, `crypto_sign_rsacms` and `crypto_sign_cms`,
/repo/src/voucher/crypto_ossl.c:1427-1560, for arguments that are not NULL. -/
def signCms (lib : Lib) (certs : Option Nat) : Prog (Option (Option Id)) := do
  match ← mk .pkey with
  | none => pure none
  | some p =>
    match ← signWithKey lib p certs with
    | none => do
      drop .pkey p
      pure none
    | some d => do
      drop .pkey p
      pure (some d)

/-- A `CMS_ContentInfo` with the certificates it contains and, once verified, the references to the
signers' certificates (/repo/src/voucher/crypto_ossl.c:1624,1661). -/
structure Msg where
  id : Id
  certs : List Id
  signers : List Id
deriving Repr, DecidableEq

/-- `derbuf_to_cms`, /repo/src/voucher/crypto_ossl.c:127-138, with the certificates in the message. -/
def readMsg : Prog (Option Msg) := do
  match ← mk .cms with
  | none => pure none
  | some c => do
    let n ← draw
    let l ← freshes .x509 n.toNat
    pure (some ⟨c, l, []⟩)

/-- `CMS_ContentInfo_free`, /repo/src/voucher/crypto_ossl.c:1684,1691: the certificates, the
references to signers, the message. -/
def freeMsg (c : Msg) : Prog Unit := do
  dropAll .x509 c.certs
  dropAll .x509 c.signers
  drop .cms c.id

/-- `CMS_verify`, /repo/src/voucher/crypto_ossl.c:1661: `none` is 0.  The message keeps references to
the signers' certificates, which come from the message or the stack. -/
def verifyMsg (c : Msg) (stack : List Id) : Prog (Option Msg) := do
  use .cms c.id
  match ← yes with
  | false => pure none
  | true => do
    let n ← draw
    let l ← choose (c.certs ++ stack) n.toNat
    upAll .x509 l
    pure (some ⟨c.id, c.certs, l⟩)

/-- A `struct BinaryArrayList`: the head and the blocks of the elements with their arrays
(/repo/src/voucher/array.h:113-118). -/
structure ArrList where
  hd : Id
  els : List (Id × Id)
deriving Repr, DecidableEq

/-- `free_array_list`, /repo/src/voucher/array.c:32-56. -/
def freeArrEls : List (Id × Id) → Prog Unit
  | [] => pure ()
  | (el, a) :: l => do
    drop .mem a
    drop .mem el
    freeArrEls l

/-- `free_array_list`, /repo/src/voucher/array.c:32-56. -/
def freeArr (l : ArrList) : Prog Unit := do
  freeArrEls l.els
  drop .mem l.hd

/-- `push_array_list` of a non-NULL array, /repo/src/voucher/array.c:57-85: when the copy cannot be
made the element is unlinked through NULL pointers (C24). -/
def pushArr (lib : Lib) (l : ArrList) (a : Id) : Prog (Option ArrList) := do
  match ← mk .mem with
  | none => pure none
  | some el => do
    use .mem a
    match lib.copy l.els.length with
    | false => undefined
    | true => do
      let cp ← fresh .mem
      pure (some ⟨l.hd, l.els ++ [(el, cp)]⟩)

/-- The loop of `exatract_cms_certs`, /repo/src/voucher/crypto_ossl.c:1583-1605. -/
def extractLoop (lib : Lib) (signers : Stack) (l : ArrList) : List Id → Prog (Bool × Option ArrList)
  | [] => do
    popFree signers
    pure (true, some l)
  | x :: xs => do
    match ← certToDer x with
    | none => do
      freeArr l
      popFree signers
      pure (false, none)
    | some d =>
      match ← pushArr lib l d with
      | none => do
        drop .mem d
        freeArr l
        popFree signers
        pure (false, none)
      | some l => do
        drop .mem d
        extractLoop lib signers l xs

/-- `CMS_get0_signers`, /repo/src/voucher/crypto_ossl.c:1564: NULL without signers or memory. -/
def getSigners (lib : Lib) (c : Msg) : Prog (Option Stack) := do
  use .cms c.id
  match c.signers with
  | [] => pure none
  | _ :: _ =>
    match ← mk .stack with
    | none => pure none
    | some i =>
      match lib.signersOwned with
      | false => pure (some ⟨i, c.signers⟩)
      | true => do
        upAll .x509 c.signers
        pure (some ⟨i, c.signers⟩)

/-- `exatract_cms_certs`, /repo/src/voucher/crypto_ossl.c:1562-1608.  The stack and its elements are
released (1573,1580,1591,1599,1606). -/
def extract (lib : Lib) (c : Msg) : Prog (Bool × Option ArrList) := do
  match ← getSigners lib c with
  | none => pure (true, none)
  | some st =>
    match st.elems with
    | [] => do
      popFree st
      pure (true, none)
    | _ :: _ =>
      match ← mk .mem with
      | none => do
        popFree st
        pure (false, none)
      | some hd => extractLoop lib st ⟨hd, []⟩ st.elems

/-- What `crypto_verify_cms` leaves (/repo/src/voucher/crypto_ossl.c:1610-1614): whether a length is
returned, `*data` and `*out_certs`. -/
structure Verified where
  ok : Bool
  data : Option Id
  certs : Option ArrList
deriving Repr, DecidableEq

/-- The references in an optional stack (/repo/src/voucher/crypto_ossl.c:1630-1637). -/
def elemsO : Option Stack → List Id
  | none => []
  | some st => st.elems

/-- The release at the end of `crypto_verify_cms`, /repo/src/voucher/crypto_ossl.c:1682-1693. -/
def verifyEnd (b : Option Id) (cs : Option Stack) (c : Msg) (st : Option (Id × PtrList)) : Prog Unit := do
  dropO .bio b
  popFreeO cs
  freeMsg c
  freeStoreO st

/-- `crypto_verify_cms`, /repo/src/voucher/crypto_ossl.c:1610-1694, for non-NULL `cms` and `data` with
`*data` NULL; `out`: `out_certs` is given. -/
def verifyCms (lib : Lib) (certs : Option Nat) (store : Option (List Int)) (out : Bool) : Prog Verified := do
  match ← readMsg with
  | none => pure ⟨false, none, none⟩
  | some c =>
    match ← mkStackO lib certs with
    | none => do
      freeMsg c
      pure ⟨false, none, none⟩
    | some cs =>
      match ← mkStoreO lib store with
      | none => do
        popFreeO cs
        freeMsg c
        pure ⟨false, none, none⟩
      | some st =>
        match ← mk .bio with
        | none => do
          verifyEnd none cs c st
          pure ⟨false, none, none⟩
        | some b =>
          match ← verifyMsg c (elemsO cs) with
          | none => do
            verifyEnd (some b) cs c st
            pure ⟨false, none, none⟩
          | some c =>
            match ← bioToPtr b with
            | none => do
              verifyEnd (some b) cs c st
              pure ⟨false, none, none⟩
            | some d =>
              match out with
              | false => do
                verifyEnd (some b) cs c st
                pure ⟨true, d, none⟩
              | true =>
                match ← extract lib c with
                | (false, l) => do
                  verifyEnd (some b) cs c st
                  pure ⟨false, d, l⟩
                | (true, l) => do
                  verifyEnd (some b) cs c st
                  pure ⟨true, d, l⟩

/-- `verify_cms_voucher` for a non-NULL `cms`, /repo/src/voucher/voucher.c:1017-1044: the voucher and
`*out_certs`.  Reading the text gives a voucher (one block here) or NULL. -/
def verifyVoucher (lib : Lib) (certs : Option Nat) (store : Option (List Int)) (out : Bool) :
    Prog (Option Id × Option ArrList) := do
  let r ← verifyCms lib certs store out
  match r.ok with
  | false => pure (none, r.certs)
  | true =>
    match ← mk .mem with
    | none => do
      dropO .mem r.data
      pure (none, r.certs)
    | some v => do
      dropO .mem r.data
      pure (some v, r.certs)

end Brski.Res
