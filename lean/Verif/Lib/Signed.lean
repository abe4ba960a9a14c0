import Verif.Lib.Accept
import Verif.Lib.V1
/-
From a pending transaction review to what it shows and what approving it signs.
-/
namespace Casper
open M

/-- The state in which the last chunk of a transaction is parsed. -/
def Dev.loaded (d : Dev) (rx : Bytes) : Dev := { (d.recv rx).store (rx.drop 5) with txInit := false }

/-- A transaction review opens exactly with accepted data. -/
theorem sign_pending {pl : Platform} (hcap : pl.cap < 65536) {d d' : Dev} (hd : d.Ok pl) {rx : Bytes} {pin : Bool}
    (hins : rx.getD 1 0 = 2) (h : step pl d (.apdu rx pin) = (d', .pending)) :
    (d.loaded rx).Ok pl ∧ (d.loaded rx).data = d.data ++ rx.drop 5 ∧
    ((∃ xs s, d.data ++ rx.drop 5 = 0 :: xs ∧ DeployAccepted (mkEnv pl d.expert xs) s ∧
        d' = { (d.loaded rx).tookDeploy s with review := some .tx }) ∨
     (∃ xs s, d.data ++ rx.drop 5 = 1 :: xs ∧ V1Accepted (mkEnv pl d.expert xs) s ∧
        d' = { (d.loaded rx).tookV1 s with review := some .tx })) := by
  have hd' : (d.recv rx).Ok pl := hd
  rw [step_apdu] at h
  split at h <;> simp only [Prod.mk.injEq, reduceCtorEq, and_false, and_true] at h
  rename_i u d1 hdis
  subst h
  obtain ⟨-, -, -, hcase⟩ := dispatch_pending hdis
  rw [hins] at hcase
  have hc : handleSign pl rx (d.recv rx) = .ok u d1 := by
    rcases hcase with h | h | h | h <;> first | exact h.2 | exact absurd h.1 (by decide)
  obtain ⟨a1, a2, a3, a4, a5, d2, h2, rfl⟩ := handleSign_ok hd'.2 hc
  have hok : (d.loaded rx).Ok pl := Dev.Ok.store hd' a5
  have hdata : (d.loaded rx).data = d.data ++ rx.drop 5 := Dev.store_data hd' _
  refine ⟨hok, hdata, ?_⟩
  rcases (txParse_ok hcap hok).1 h2 with ⟨xs, s, b1, b2, b3⟩ | ⟨xs, s, b1, b2, b3⟩
  · exact .inl ⟨xs, s, hdata ▸ b1, b2, by rw [b3]⟩
  · exact .inr ⟨xs, s, hdata ▸ b1, b2, by rw [b3]⟩

theorem reviewItem_v1 {pl : Platform} {d : Dev} (hd : d.Ok pl) {x : UInt8} {xs : Bytes} (hx : d.data = x :: xs) (s : VS)
    (i : Nat) : reviewItem pl { d.tookV1 s with review := some .tx } .tx i =
      if u8 i ≥ 128 ∨ u8 i > s.v.numItems then fail eNoData else getItemV1 (mkEnv pl d.expert xs) s.v (u8 i) := by
  have he : Dev.env pl { d.tookV1 s with review := some .tx } = mkEnv pl d.expert xs := env_tookV1 (s := s) hd hx
  unfold reviewItem
  dsimp only
  rw [he]
  funext t
  simp only [parserNumItems, parserItem, Dev.tookV1, Dev.forV1]
  rfl

theorem reviewItem_deploy {pl : Platform} {d : Dev} (hd : d.Ok pl) {x : UInt8} {xs : Bytes} (hx : d.data = x :: xs) (s : DS)
    (hk : s.dep.kind = 0) (i : Nat) : reviewItem pl { d.tookDeploy s with review := some .tx } .tx i =
      if u8 i ≥ 128 ∨ u8 i > numItemsDeploy (mkEnv pl d.expert xs) s.dep then fail eNoData
      else getItemDeploy (mkEnv pl d.expert xs) s.epo s.dep (u8 i) := by
  have he : Dev.env pl { d.tookDeploy s with review := some .tx } = mkEnv pl d.expert xs := env_tookDeploy (s := s) hd hx hk
  unfold reviewItem
  dsimp only
  rw [he]
  funext t
  simp only [parserNumItems, parserItem, Dev.tookDeploy, Dev.forDeploy]
  rfl

theorem reviewCount_v1 {pl : Platform} {d : Dev} (s : VS) (t : Nat) :
    reviewCount pl { d.tookV1 s with review := some .tx } .tx t = .ok s.v.numItems t := rfl

theorem reviewCount_deploy {pl : Platform} {d : Dev} (hd : d.Ok pl) {x : UInt8} {xs : Bytes} (hx : d.data = x :: xs) (s : DS)
    (hk : s.dep.kind = 0) (t : Nat) :
    reviewCount pl { d.tookDeploy s with review := some .tx } .tx t = .ok (numItemsDeploy (mkEnv pl d.expert xs) s.dep) t := by
  have he : Dev.env pl { d.tookDeploy s with review := some .tx } = mkEnv pl d.expert xs := env_tookDeploy (s := s) hd hx hk
  unfold reviewCount
  dsimp only
  rw [he]
  rfl

/-- The bytes in the upload buffer behind the first one. -/
theorem mem_at {pl : Platform} {d : Dev} (hd : d.Ok pl) {x : UInt8} {a b c : Bytes} (hx : d.data = x :: (a ++ b ++ c)) :
    (d.mem.drop (1 + a.length)).take b.length = b ∧ 1 + a.length + b.length ≤ pl.cap := by
  have h1 := List.take_append_drop d.pos d.mem
  rw [show d.mem.take d.pos = d.data from rfl, hx] at h1
  have h2 := hd.data_length
  have h3 := hd.2
  rw [hx] at h2
  simp only [List.length_cons, List.length_append] at h2
  refine ⟨?_, by omega⟩
  rw [← h1, Nat.add_comm]
  simp

/-- The answer to an approval: the signature of a digest with a key, or the report that signing failed. -/
def signatureReply (pl : Platform) (path digest : Bytes) : Out :=
  match pl.sign path digest with
  | some sig => .reply sig 0x9000
  | none => .reply [] 0x6F01

theorem approve_v1 {pl : Platform} {d : Dev} (hd : d.Ok pl) {a h c : Bytes} (hx : d.data = 1 :: (a ++ h ++ c))
    (hl : h.length = 32) {s : VS} (hs : s.v.md.size + s.v.md.fo 0 = a.length) :
    (step pl { d.tookV1 s with review := some .tx } .approve).2 = signatureReply pl d.hdPath (pl.sha256 h) := by
  obtain ⟨h1, h2⟩ := mem_at hd hx
  rw [hl] at h1 h2
  have hb : signedBytes pl { d.tookV1 s with review := none } = .ok h () := by
    unfold signedBytes
    simp only [Dev.tookV1, Dev.forV1]
    simp [hs, h1, h2]
  show (appSign pl { d.tookV1 s with review := none }).2 = _
  unfold appSign signatureReply
  rw [hb]
  dsimp only
  rw [show Dev.hdPath { d.tookV1 s with review := none } = d.hdPath from rfl]
  cases pl.sign d.hdPath (pl.sha256 h) <;> rfl

theorem approve_deploy {pl : Platform} {d : Dev} (hd : d.Ok pl) {a h c : Bytes} (hx : d.data = 0 :: (a ++ h ++ c))
    (hl : h.length = 32) {s : DS} (hk : s.dep.kind = 0) (hs : headerLength s.dep.header = a.length) :
    (step pl { d.tookDeploy s with review := some .tx } .approve).2 = signatureReply pl d.hdPath (pl.sha256 h) := by
  obtain ⟨h1, h2⟩ := mem_at hd hx
  rw [hl] at h1 h2
  have hb : signedBytes pl { d.tookDeploy s with review := none } = .ok h () := by
    unfold signedBytes
    simp only [Dev.tookDeploy, Dev.forDeploy]
    simp [hs, h1, h2, hk]
  show (appSign pl { d.tookDeploy s with review := none }).2 = _
  unfold appSign signatureReply
  rw [hb]
  dsimp only
  rw [show Dev.hdPath { d.tookDeploy s with review := none } = d.hdPath from rfl]
  cases pl.sign d.hdPath (pl.sha256 h) <;> rfl

/-! ### Version 1 transactions: hash and payload -/

/-- Prefix, 32 bytes, the bytes they are the hash of, the rest. -/
theorem V1Accepted.split {e : Env} {s : VS} (h : V1Accepted e s) (hs : Small e) :
    V1Facts e s.v ∧ ∃ env hash payload rest, e.buf = env ++ hash ++ payload ++ rest ∧ env.length = s.v.md.size ∧
      hash.length = 32 ∧ payload.length = s.v.pmd.size + s.v.pmd.fieldsSize ∧ e.blake payload = hash := by
  have hf := readV1_post hs _ _ h.parse
  refine ⟨hf, ?_⟩
  obtain ⟨t, hv⟩ := h.valid
  unfold validateV1 at hv
  simp only [bind_eq_ok, slice_eq_ok, require_eq_ok, hf.fo0, hf.fo1] at hv
  obtain ⟨hash, _, ⟨⟨p1, q1, hb1, hl1⟩, hl2, -⟩, payload, _, ⟨ha2, hl3, -⟩, hv, -⟩ := hv
  rw [Nat.add_zero] at hl1
  have ha2' : At e.buf (p1.length + 32) payload := by rw [hl1]; exact ha2
  have : At e.buf p1.length (hash ++ payload) := by
    rw [At.append, hl2]
    exact ⟨⟨p1, q1, hb1, rfl⟩, ha2'⟩
  obtain ⟨p2, q2, hb2, hl4⟩ := this
  refine ⟨p2, hash, payload, q2, by rw [hb2]; simp, by omega, hl2, hl3, hv⟩

end Casper
