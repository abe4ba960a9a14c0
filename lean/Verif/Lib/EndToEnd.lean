import Verif.Lib.Signed
import Verif.Lib.Show
/-
From uploading accepted data to the review and the answer to its approval.
-/
namespace Casper
open M

/-- The state in which the last chunk of an upload is handled. -/
theorem upload_reaches_mem (pl : Platform) (d : Dev) (hd : d.Ok pl) (ins : UInt8) (hi : ins = 2 ∨ ins = 3) (path : Bytes)
    (hl : path.length = 20) (hp : casperPath path) (cs : List Bytes) (last : Bytes)
    (hfit : (cs.flatten ++ last).length ≤ pl.cap) :
    ∃ d0 e0 : Dev, d0.Ok pl ∧ d0.data = cs.flatten ++ last ∧ d0.expert = d.expert ∧ d0.hdPath = path ∧
      d0.ctx = d.ctx ∧ d0.dep = d.dep ∧ d0.v1 = d.v1 ∧
      d0.mem = cs.flatten ++ last ++ d.mem.drop (cs.flatten ++ last).length ∧ d0.pos = (cs.flatten ++ last).length ∧
      run pl d (upload ins path cs last) = ((outOf e0 (finish pl ins d0)).1,
        List.replicate (cs.length + 1) (.reply [] 0x9000) ++ [(outOf e0 (finish pl ins d0)).2]) := by
  simp only [List.length_append] at hfit
  have h0 := step_init (pl := pl) hi hd hl hp
  generalize hs0 : ({ d.recv (apdu ins 0 path) with pos := 0, hdPath := path, txInit := true } : Dev) = s0 at h0
  have hok0 : s0.Ok pl := by subst hs0; exact ⟨hd.1, Nat.zero_le _⟩
  have ht0 : s0.txInit = true := by subst hs0; rfl
  have hx0 : s0.tx = 0 := by subst hs0; rfl
  have hpos0 : s0.pos = 0 := by subst hs0; rfl
  have hd0 : s0.data = [] := by simp [Dev.data, hpos0]
  obtain ⟨i, hadds⟩ := run_adds (pl := pl) hi cs s0 hok0 ht0 hx0 (by omega)
  have hlast := step_last (pl := pl) (d := { s0.store cs.flatten with io := i }) hi (xs := last) ht0 (by
    show s0.pos + cs.flatten.length + last.length ≤ pl.cap; omega)
  have hA : ((({ s0.store cs.flatten with io := i } : Dev).recv (apdu ins 2 last)).store last) =
      { s0.store (cs.flatten ++ last) with io := poke i (apdu ins 2 last) } := by
    rw [← Dev.store_store hok0 cs.flatten last (by omega)]
    simp only [Dev.store, Dev.recv, hx0]
  rw [hA] at hlast
  have hdata := Dev.store_data hok0 (cs.flatten ++ last)
  rw [hd0, List.nil_append] at hdata
  refine ⟨{ s0.store (cs.flatten ++ last) with io := poke i (apdu ins 2 last) }, { s0.store cs.flatten with io := i },
    Dev.Ok.store hok0 (by simp only [List.length_append]; omega), hdata, ?_, ?_, ?_, ?_, ?_, ?_, ?_, ?_⟩
  iterate 5 (subst hs0; rfl)
  · subst hs0
    simp [Dev.store, Dev.recv]
  · subst hs0
    simp [Dev.store, Dev.recv]
  unfold upload
  rw [List.cons_append, run, h0, run_append, hadds]
  simp only [run, hlast, List.replicate_succ, List.cons_append]

/-- The state in which the last chunk of an upload is handled. -/
theorem upload_reaches (pl : Platform) (d : Dev) (hd : d.Ok pl) (ins : UInt8) (hi : ins = 2 ∨ ins = 3) (path : Bytes)
    (hl : path.length = 20) (hp : casperPath path) (cs : List Bytes) (last : Bytes)
    (hfit : (cs.flatten ++ last).length ≤ pl.cap) :
    ∃ d0 e0 : Dev, d0.Ok pl ∧ d0.data = cs.flatten ++ last ∧ d0.expert = d.expert ∧ d0.hdPath = path ∧
      d0.ctx = d.ctx ∧ d0.dep = d.dep ∧ d0.v1 = d.v1 ∧
      run pl d (upload ins path cs last) = ((outOf e0 (finish pl ins d0)).1,
        List.replicate (cs.length + 1) (.reply [] 0x9000) ++ [(outOf e0 (finish pl ins d0)).2]) := by
  obtain ⟨d0, e0, h1, h2, h3, h4, h5, h6, h7, -, -, h8⟩ := upload_reaches_mem pl d hd ins hi path hl hp cs last hfit
  exact ⟨d0, e0, h1, h2, h3, h4, h5, h6, h7, h8⟩

theorem finish_v1 {pl : Platform} (hcap : pl.cap < 65536) {d0 e0 : Dev} (hd : d0.Ok pl) {xs : Bytes} {s : VS}
    (hx : d0.data = 1 :: xs) (ha : V1Accepted (mkEnv pl d0.expert xs) s) :
    outOf e0 (finish pl 2 d0) =
      ({ ({ d0 with txInit := false } : Dev).tookV1 s with review := some .tx }, .pending) := by
  have := (txParse_ok (d := { d0 with txInit := false }) (d' := ({ d0 with txInit := false } : Dev).tookV1 s) hcap hd).2
    (.inr ⟨xs, s, hx, ha, rfl⟩)
  unfold finish
  rw [if_pos rfl]
  unfold orExplain
  simp only [bind_run, modify_run, Res.bind_ok, attempt_run, this]
  rfl

theorem finish_deploy {pl : Platform} (hcap : pl.cap < 65536) {d0 e0 : Dev} (hd : d0.Ok pl) {xs : Bytes} {s : DS}
    (hx : d0.data = 0 :: xs) (ha : DeployAccepted (mkEnv pl d0.expert xs) s) :
    outOf e0 (finish pl 2 d0) =
      ({ ({ d0 with txInit := false } : Dev).tookDeploy s with review := some .tx }, .pending) := by
  have := (txParse_ok (d := { d0 with txInit := false }) (d' := ({ d0 with txInit := false } : Dev).tookDeploy s) hcap hd).2
    (.inl ⟨xs, s, hx, ha, rfl⟩)
  unfold finish
  rw [if_pos rfl]
  unfold orExplain
  simp only [bind_run, modify_run, Res.bind_ok, attempt_run, this]
  rfl

/-- The pending review has exactly these items, in this order, whenever and however often they are asked for. -/
def Displays (pl : Platform) (d : Dev) (items : List (Bytes × Bytes)) : Prop :=
  ∀ t, reviewCount pl d .tx t = .ok items.length t ∧
    ∀ i kv, items[i]? = some kv → ∃ c, reviewItem pl d .tx i t = .ok kv c

/-- Uploading accepted version 1 data opens a review. -/
theorem upload_v1 (pl : Platform) (hcap : pl.cap < 65536) (d : Dev) (hd : d.Ok pl) (path : Bytes) (hl : path.length = 20)
    (hp : casperPath path) (cs : List Bytes) (last xs : Bytes) (hx : cs.flatten ++ last = 1 :: xs)
    (hfit : (cs.flatten ++ last).length ≤ pl.cap) {s : VS} (ha : V1Accepted (mkEnv pl d.expert xs) s) :
    ∃ d0 : Dev, d0.Ok pl ∧ d0.data = 1 :: xs ∧ d0.expert = d.expert ∧ d0.hdPath = path ∧
      run pl d (upload 2 path cs last) = ({ d0.tookV1 s with review := some .tx },
        List.replicate (cs.length + 1) (.reply [] 0x9000) ++ [.pending]) := by
  obtain ⟨d0, e0, h1, h2, h3, h4, -, -, -, h5⟩ := upload_reaches pl d hd 2 (.inl rfl) path hl hp cs last hfit
  rw [finish_v1 hcap h1 (h2.trans hx) (by rw [h3]; exact ha)] at h5
  exact ⟨{ d0 with txInit := false }, h1, h2.trans hx, h3, h4, h5⟩

/-- Uploading accepted Deploy data opens a review. -/
theorem upload_deploy (pl : Platform) (hcap : pl.cap < 65536) (d : Dev) (hd : d.Ok pl) (path : Bytes) (hl : path.length = 20)
    (hp : casperPath path) (cs : List Bytes) (last xs : Bytes) (hx : cs.flatten ++ last = 0 :: xs)
    (hfit : (cs.flatten ++ last).length ≤ pl.cap) {s : DS} (ha : DeployAccepted (mkEnv pl d.expert xs) s) :
    ∃ d0 : Dev, d0.Ok pl ∧ d0.data = 0 :: xs ∧ d0.expert = d.expert ∧ d0.hdPath = path ∧
      run pl d (upload 2 path cs last) = ({ d0.tookDeploy s with review := some .tx },
        List.replicate (cs.length + 1) (.reply [] 0x9000) ++ [.pending]) := by
  obtain ⟨d0, e0, h1, h2, h3, h4, -, -, -, h5⟩ := upload_reaches pl d hd 2 (.inl rfl) path hl hp cs last hfit
  rw [finish_deploy hcap h1 (h2.trans hx) (by rw [h3]; exact ha)] at h5
  exact ⟨{ d0 with txInit := false }, h1, h2.trans hx, h3, h4, h5⟩

end Casper
