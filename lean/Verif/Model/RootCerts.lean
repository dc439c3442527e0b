import Verif.Model.Mem

/-!
# Model of the root certificates of the Zephyr ports

Modelled code: `ports/zephyr/common/memfault_platform_http.c` (`prv_install_cert`,
`memfault_zephyr_port_install_root_certs`, `prv_configure_tls_socket`, `prv_configure_socket`, and `prv_open_socket` as
far as options of the socket go), `ports/zephyr/ncs/src/memfault_nrf91_root_cert_storage.c` (certificates in the modem)
and `ports/zephyr/common/memfault_tls_root_cert_storage.c` (certificates in Zephyr's TLS credentials).

The environment: the modem's key management, which may fail in any call as a script says, Zephyr's table of
credentials, and the results of `setsockopt` and `connect`.
-/

namespace Mflt.RootCerts

/-- The certificates compiled into the program, as they are in memory: text with the terminating 0 (PEM), or bytes (DER).
root_cert_storage.h:22-31: 1001 is Digicert G2, 1002 Amazon CA 1, 1003 Digicert CA. -/
structure Certs where
  digicertG2 : Bytes
  amazonCa1 : Bytes
  digicertCa : Bytes
  deriving Repr, DecidableEq

/-- What `prv_install_cert` needs of the storage. -/
structure Backend (σ : Type) where
  add : Nat → Bytes → σ → Int × σ
  remove : Nat → σ → Int × σ

/-- `prv_install_cert`, memfault_platform_http.c:133-157. The function returns `bool`: any error is 1. -/
def installCert {σ : Type} (b : Backend σ) (certs : Certs) (id : Nat) (s : σ) : Int × σ :=
  let toBool (rv : Int) : Int := if rv = 0 then 0 else 1
  if id = 1003 then (fun r => (toBool r.1, r.2)) (b.add id certs.digicertCa s)
  else if id = 1001 then (fun r => (toBool r.1, r.2)) (b.add id certs.digicertG2 s)
  else if id = 1002 then (fun r => (toBool r.1, r.2)) (b.add id certs.amazonCa1 s)
  else (toBool (-1), s)

/-- The second loop of `memfault_zephyr_port_install_root_certs`, memfault_platform_http.c:165-173. -/
def installLoop {σ : Type} (b : Backend σ) (certs : Certs) : List Nat → σ → Int × σ
  | [], s => (0, s)
  | id :: ids, s =>
    let r := installCert b certs id s
    if r.1 ≠ 0 then r else installLoop b certs ids r.2

/-- `memfault_zephyr_port_install_root_certs`, memfault_platform_http.c:159-174. The first loop removes the deprecated
certificates 1004 up to 1004; the second installs 1001 up to 1003. -/
def install {σ : Type} (b : Backend σ) (certs : Certs) (s : σ) : Int × σ :=
  installLoop b certs [1001, 1002, 1003] (b.remove 1004 s).2

/-! ## The modem of nRF91 -/

/-- The modem: credentials by their tags, what the next calls return (0 if the script has ended), and how often it was
written. `spoiled`: what a call that fails to write leaves behind. -/
structure Modem where
  store : Nat → Option Bytes
  script : List Int
  spoiled : Option Bytes
  writes : Nat

/-- What the next call returns. -/
def Modem.next (m : Modem) : Int × Modem :=
  match m.script with
  | [] => (0, m)
  | e :: es => (e, { m with script := es })

def put (f : Nat → Option Bytes) (k : Nat) (v : Option Bytes) : Nat → Option Bytes := fun l => if l = k then v else f l

/-- `modem_key_mgmt_write`. -/
def Modem.write (m : Modem) (id : Nat) (v : Bytes) : Int × Modem :=
  let r := m.next
  (r.1, { r.2 with store := put m.store id (if r.1 = 0 then some v else m.spoiled), writes := m.writes + 1 })

/-- `modem_key_mgmt_delete`. -/
def Modem.delete (m : Modem) (id : Nat) : Int × Modem :=
  let r := m.next
  (r.1, { r.2 with store := put m.store id (if r.1 = 0 then none else m.store id), writes := m.writes + 1 })

/-- `modem_key_mgmt_exists`. -/
def Modem.exists (m : Modem) (id : Nat) : Int × Bool × Modem :=
  let r := m.next
  (r.1, (m.store id).isSome, r.2)

/-- `modem_key_mgmt_cmp`: 0 if equal, 1 if not, or an error. -/
def Modem.cmp (m : Modem) (id : Nat) (v : Bytes) : Int × Modem :=
  let r := m.next
  (if r.1 ≠ 0 then r.1 else if m.store id = some v then 0 else 1, r.2)

/-- `memfault_root_cert_storage_add`, memfault_nrf91_root_cert_storage.c:17-45. `cert`: the memory of the certificate,
`cert_length` its length; it is written up to its first 0. -/
def modemAdd (id : Nat) (cert : Bytes) (m : Modem) : Int × Modem :=
  let (err, found, m) := m.exists id
  if err ≠ 0 then (err, m)
  else if found then
    let (err, m) := m.cmp id (cert.take (cert.length - 1))
    if err = 0 then (0, m) else m.write id (cert.takeWhile (· ≠ 0))
  else m.write id (cert.takeWhile (· ≠ 0))

/-- `memfault_root_cert_storage_remove`, memfault_nrf91_root_cert_storage.c:47-67. -/
def modemRemove (id : Nat) (m : Modem) : Int × Modem :=
  let (err, found, m) := m.exists id
  if err ≠ 0 then (err, m)
  else if !found then (0, m)
  else m.delete id

def modem : Backend Modem := ⟨modemAdd, modemRemove⟩

/-! ## Zephyr's TLS credentials -/

/-- The table of credentials. -/
structure Table where
  entries : List (Nat × Bytes)
  capacity : Nat
  deriving Repr, DecidableEq

/-- `memfault_root_cert_storage_add`, memfault_tls_root_cert_storage.c:39-42, with Zephyr's `tls_credential_add`: a tag that
is there is an error (-17, EEXIST), a full table another (-12, ENOMEM). -/
def tableAdd (id : Nat) (cert : Bytes) (t : Table) : Int × Table :=
  if t.entries.any (fun e => e.1 = id) then (-17, t)
  else if t.entries.length ≥ t.capacity then (-12, t)
  else (0, { t with entries := t.entries ++ [(id, cert)] })

/-- `memfault_root_cert_storage_remove`, memfault_tls_root_cert_storage.c:46-49: not done. -/
def tableRemove (_ : Nat) (t : Table) : Int × Table := (0, t)

def table : Backend Table := ⟨tableAdd, tableRemove⟩

/-! ## Sockets -/

/-- The options of a socket. -/
structure Socket where
  tags : Option (List Nat)
  verify : Option Nat
  nocopy : Bool
  hostname : Option Bytes
  connected : Bool
  deriving Repr, DecidableEq

/-- A socket as `socket` returns it. -/
def Socket.fresh : Socket := ⟨none, none, false, none, false⟩

/-- The results of the calls for options, in their order, and of `connect`. -/
structure Results where
  tags : Int
  verify : Int
  nocopy : Int
  hostname : Int
  connect : Int
  deriving Repr, DecidableEq

/-- `prv_configure_tls_socket`, memfault_platform_http.c:221-259. An option whose call fails is not set. `der`:
`CONFIG_MEMFAULT_TLS_CERTS_USE_DER`. -/
def configureTls (der : Bool) (host : Bytes) (r : Results) (s : Socket) : Int × Socket :=
  if r.tags ≠ 0 then (r.tags, s)
  else
    let s := { s with tags := some [1001, 1002, 1003] }
    if r.verify ≠ 0 then (r.verify, s)
    else
      let s := { s with verify := some 2 }
      if der ∧ r.nocopy ≠ 0 then (r.nocopy, s)
      else
        let s := { s with nocopy := der }
        (r.hostname, if r.hostname = 0 then { s with hostname := some host } else s)

/-- `prv_open_socket` after the socket was created, memfault_platform_http.c:330-340, with `prv_configure_socket`,
memfault_platform_http.c:261-271. `none`: the socket is closed. -/
def openSocket (disableTls der : Bool) (host : Bytes) (r : Results) : Option Socket :=
  let c := if disableTls then (0, Socket.fresh) else configureTls der host r .fresh
  if c.1 < 0 then none
  else if r.connect < 0 then none
  else some { c.2 with connected := true }

end Mflt.RootCerts
