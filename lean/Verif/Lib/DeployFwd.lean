import Verif.Lib.DeployFacts
import Verif.Lib.V1Show
import Verif.Spec.Deploy
/-
Forward execution of the Deploy parser on correctly serialized data.
-/
namespace Casper
open M

theorem ldThen {α β : Type} {m : P α} {k : α → M DS β} {s : DS} {a : α} {o : Nat} {r : Res DS β}
    (h : m s.off = .ok a o) (hk : k a ⟨o, s.epo, s.dep⟩ = r) : (ld m >>= k) s = r := by
  rw [bind_run]; unfold ld; rw [h]; exact hk
theorem ld_run {α : Type} {m : P α} {s : DS} {a : α} {o : Nat} (h : m s.off = .ok a o) :
    ld m s = .ok a ⟨o, s.epo, s.dep⟩ := by unfold ld; rw [h]
theorem lpThen {α β : Type} {m : P α} {k : α → M IS β} {s : IS} {a : α} {o : Nat} {r : Res IS β}
    (h : m s.off = .ok a o) (hk : k a ⟨o, s.epo, s.item⟩ = r) : (lp m >>= k) s = r := by
  rw [bind_run]; unfold lp; rw [h]; exact hk
theorem lp_run {α : Type} {m : P α} {s : IS} {a : α} {o : Nat} (h : m s.off = .ok a o) :
    lp m s = .ok a ⟨o, s.epo, s.item⟩ := by unfold lp; rw [h]
theorem lp_err {α : Type} {m : P α} {s : IS} {x o : Nat} (h : m s.off = .err x o) :
    lp m s = .err x ⟨o, s.epo, s.item⟩ := by unfold lp; rw [h]

/-! ### Header -/

/-- Number of the key algorithm. -/
def PubKey.kind : PubKey → Nat
  | ed25519 _ => 1
  | secp256k1 _ => 2

/-- What is remembered of a header. -/
def DeployHeader.view (h : DeployHeader) : Header := ⟨h.account.kind, h.deps.length, h.chain.length⟩

theorem PubKey.Ok.length {k : PubKey} (h : k.Ok) : k.encode.length = 1 + if k.kind = 2 then 33 else 32 := by
  cases k <;> simp_all [PubKey.Ok, PubKey.encode, PubKey.kind]

theorem flatten_const {α : Type} {n : Nat} {l : List (List α)} (h : ∀ x ∈ l, x.length = n) : l.flatten.length = l.length * n := by
  induction l with
  | nil => simp
  | cons a l ih =>
    simp only [List.mem_cons, forall_eq_or_imp] at h
    simp only [List.flatten_cons, List.length_append, List.length_cons, ih h.2, h.1, Nat.add_mul, Nat.one_mul]
    omega

theorem DeployHeader.Ok.length {h : DeployHeader} (ho : h.Ok) :
    h.encode.length = pkLen h.view + 56 + (4 + h.deps.length * 32) + (4 + h.chain.length) := by
  have h1 := ho.account.length
  have h2 := ho.bodyHash
  have h3 := flatten_const ho.deps
  have hk : pkLen h.view = h.account.encode.length := by rw [h1]; rfl
  simp only [encode, List.length_append, le_length, pfx_length]
  omega

/-- Where the parts of a header are. -/
structure HeaderLayout (h : DeployHeader) (buf : Bytes) : Prop where
  account : At buf 0 h.account.encode
  timestamp : At buf (partIndex h.view .timestamp) (le 8 h.timestamp)
  ttl : At buf (partIndex h.view .ttl) (le 8 h.ttl)
  gasPrice : At buf (partIndex h.view .gasprice) (le 8 h.gasPrice)
  bodyHash : At buf (partIndex h.view .bodyhash) h.bodyHash
  deps : At buf (partIndex h.view .deps) (le 4 h.deps.length ++ h.deps.flatten)
  chain : At buf (pkLen h.view + 56 + (4 + h.deps.length * 32)) (pfx h.chain)

theorem header_layout {h : DeployHeader} (ho : h.Ok) {buf : Bytes} (ha : At buf 0 h.encode) : HeaderLayout h buf := by
  unfold DeployHeader.encode at ha
  have h1 := ho.account.length
  have h2 := ho.bodyHash
  have h3 := flatten_const ho.deps
  rw [At.append, At.append, At.append, At.append, At.append, At.append] at ha
  simp only [List.length_append, le_length] at ha
  obtain ⟨⟨⟨⟨⟨⟨a1, a2⟩, a3⟩, a4⟩, a5⟩, a6⟩, a7⟩ := ha
  have hk : pkLen h.view = h.account.encode.length := by rw [h1]; rfl
  refine ⟨a1, a2.cast ?_, a3.cast ?_, a4.cast ?_, a5.cast ?_, a6.cast ?_, a7.cast ?_⟩
  all_goals try simp only [partIndex]
  all_goals omega

theorem header_small {h : DeployHeader} (ho : h.Ok) {e : Env} (hf : Fits e) (ha : At e.buf 0 h.encode) :
    u16 (4 + h.deps.length * 32) = 4 + h.deps.length * 32 ∧ partIndex h.view .chainname = pkLen h.view + 56 + (4 + h.deps.length * 32) ∧
    headerLength h.view = h.encode.length := by
  have hl := ha.le
  have h0 := ho.length
  unfold Fits at hf
  have h1 : u16 (4 + h.deps.length * 32) = 4 + h.deps.length * 32 := u16_id (by omega)
  refine ⟨h1, ?_, ?_⟩
  · simp only [partIndex]
    rw [show h.view.deps = h.deps.length from rfl, h1, u16_id (by omega)]
  · unfold headerLength
    rw [show h.view.deps = h.deps.length from rfl, show h.view.chainLen = h.chain.length from rfl, h1,
      u16_id (x := 4 + h.chain.length) (by omega), u16_id (by omega), h0]

theorem indexPart_at {e : Env} {h : Header} {p : HPart} {n : Nat} {xs : Bytes} (ha : At e.buf n xs) (hn : partIndex h p = n)
    (s : Nat) : indexPart e h p s = .ok () n := by
  have := ha.le
  unfold indexPart
  rw [hn]
  refine setThen ?_
  rw [if_neg (by omega)]; rfl

theorem PubKey.head {k : PubKey} {buf : Bytes} {off : Nat} (h : At buf off k.encode) : ∃ b xs, At buf off (b :: xs) ∧ b.toNat = k.kind := by
  cases k with
  | ed25519 x => exact ⟨1, x, h, rfl⟩
  | secp256k1 x => exact ⟨2, x, h, rfl⟩

/-- The header is read. -/
theorem readDeployHeader_at {h : DeployHeader} (ho : h.Ok) {e : Env} (hf : Fits e) (ha : At e.buf 0 h.encode) {epo : Nat} :
    readDeployHeader e ⟨0, epo, {}⟩ = .ok () ⟨u16 (h.encode.length + 32), epo, { header := h.view }⟩ := by
  have hl := header_layout ho ha
  obtain ⟨h1, h2, h3⟩ := header_small ho hf ha
  have h0 := ha.le
  have h4 := ho.length
  unfold Fits at hf
  unfold readDeployHeader
  refine reqThen (by omega) ?_
  obtain ⟨b, xs, hb, hk⟩ := PubKey.head hl.account
  refine ldThen (readU8_at hb) (reqThen ?_ ?_)
  · rw [hk]; cases h.account <;> simp [PubKey.kind]
  rw [hk]
  refine modThen (getThen ?_)
  refine ldThen (indexPart_at hl.deps rfl _) (ldThen (readLE_at (At.append.1 hl.deps).1 (by omega)) (modThen (getThen ?_)))
  refine ldThen (indexPart_at hl.chain h2 _) (ldThen (readLE_at (At.append.1 hl.chain).1 (by omega)) (modThen (getThen ?_)))
  refine (ld_run (a := ()) (o := u16 (h.encode.length + 32)) ?_).trans rfl
  show seek (headerLength h.view + 32) _ = _
  rw [h3]; rfl

end Casper
