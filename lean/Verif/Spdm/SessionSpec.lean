import Verif.Spdm.Session
/-! What secured messages look like, and the table of sessions. -/
namespace Verif.Spdm

/-- The IV of message number `seq`: the salt with the number, little endian, added. -/
def ivFor (salt : Bytes) (seq : Nat) : Bytes := List.zipWith (· ^^^ ·) salt (toLE 12 seq)

/-- A secured message: session, length of the rest, then sealed: length of the data and the data; the header is authenticated. -/
def sealedMessage (a : Aead) (id : Nat) (key iv app : Bytes) : Bytes :=
  let plain := toLE 2 app.length ++ app
  let header := toLE 4 id ++ toLE 2 (plain.length + 16)
  header ++ (a.seal_ key iv header plain).1 ++ (a.seal_ key iv header plain).2

/-- An AEAD with tags of 16 bytes. -/
structure Aead.Correct (a : Aead) : Prop where
  cipher : ∀ key iv aad p, (a.seal_ key iv aad p).1.length = p.length
  tag : ∀ key iv aad p, (a.seal_ key iv aad p).2.length = 16
  opens : ∀ key iv aad p, a.open_ key iv aad (a.seal_ key iv aad p).1 (a.seal_ key iv aad p).2 = some p
  sized : ∀ key iv aad ct t p, a.open_ key iv aad ct t = some p → p.length = ct.length

/-- A key with its salt. -/
def Keys.Sized (k : Keys) : Prop := k.key.length = 32 ∧ k.salt.length = 12

/-- A session with AES-256-GCM. -/
structure Session.Normal (s : Session) : Prop where
  type : s.type = .encMac
  key : s.keySize = 32
  iv : s.ivSize = 12
  tag : s.tagSize = 16
  sized : s.hsReq.Sized ∧ s.hsRsp.Sized ∧ s.dataReq.Sized ∧ s.dataRsp.Sized

/-- No failure. -/
def SFault.none : SFault := ⟨false, false, []⟩

/-- The payload of a message. -/
def payloadOf (q : Verif.CmdMsg.Msg) : Bytes := window q.buf q.off q.payloadLength

/-- The identifiers in use. -/
def Mgr.ids (m : Mgr) : List Nat := (m.sessions.map (·.id)).filter (· ≠ 0)

/-- Every identifier is used once, and the counter counts them. -/
structure Mgr.Ok (m : Mgr) : Prop where
  nodup : m.ids.Nodup
  count : m.count = m.ids.length
  small : m.sessions.length < 2 ^ 32

end Verif.Spdm
