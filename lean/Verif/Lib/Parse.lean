import Verif.Props.Upload
import Verif.Lib.At
/-
`parser_parse` case by case on the uploaded bytes.
-/
namespace Casper
open M

theorem Dev.Ok.data_length {pl : Platform} {d : Dev} (h : d.Ok pl) : d.data.length = d.pos := by
  simp [Dev.data, h.1]; have := h.2; omega

/-- The state in which `parser_read_deploy` starts. -/
def Dev.forDeploy (d : Dev) : Dev :=
  { d with ctx := ⟨1, d.pos - 1, 0, .deploy⟩, dep := {}, epo := 0 }
/-- The state in which `parser_read_transactionV1` starts. -/
def Dev.forV1 (d : Dev) : Dev :=
  { d with ctx := ⟨1, d.pos - 1, 1, .v1⟩, v1 := {}, epo := 0 }

/-- The environment in which the bytes `xs` are parsed and rendered (not raw WASM). -/
def mkEnv (pl : Platform) (expert : Bool) (xs : Bytes) : Env :=
  { buf := xs, expert := expert, blake := pl.blake, fmtTime := pl.fmtTime, overlong := pl.overlong, wasm := false }

theorem mem_tail {pl : Platform} {d : Dev} (h : d.Ok pl) {x : UInt8} {xs : Bytes} (hx : d.data = x :: xs) :
    (d.mem.drop 1).take (d.pos - 1) = xs := by
  have hl := h.data_length
  rw [hx] at hl
  have : (d.mem.take d.pos).drop 1 = xs := by rw [show d.mem.take d.pos = d.data from rfl, hx]; rfl
  rw [List.drop_take] at this
  exact this

theorem env_forDeploy {pl : Platform} {d : Dev} (h : d.Ok pl) {x : UInt8} {xs : Bytes} (hx : d.data = x :: xs) :
    d.forDeploy.env pl = mkEnv pl d.expert xs := by
  unfold Dev.env Dev.forDeploy mkEnv
  dsimp only
  rw [mem_tail h hx]; rfl

theorem env_forV1 {pl : Platform} {d : Dev} (h : d.Ok pl) {x : UInt8} {xs : Bytes} (hx : d.data = x :: xs) :
    d.forV1.env pl = mkEnv pl d.expert xs := by
  unfold Dev.env Dev.forV1 mkEnv
  dsimp only
  rw [mem_tail h hx]; rfl

theorem parserParse_nil {pl : Platform} {d : Dev} (h : d.Ok pl) (hx : d.data = []) :
    ∃ t, parserParse pl d = .err 2 t := by
  have hl := h.data_length
  rw [hx] at hl
  have hp : d.pos = 0 := hl.symm
  unfold parserParse
  rw [bind_run, show parserInit d = if u16 d.pos = 0 then
      .err 2 { d with ctx := { d.ctx with start := 0, len := 0 } } else
      .ok () { d with ctx := { d.ctx with start := 0, len := u16 d.pos }, epo := 0 } from rfl, hp]
  exact ⟨_, rfl⟩

theorem parserParse_cons {pl : Platform} {d : Dev} (hcap : pl.cap < 65536) (h : d.Ok pl) {x : UInt8} {xs : Bytes}
    (hx : d.data = x :: xs) :
    parserParse pl d =
      if xs = [] then .err 12 { d with ctx := { d.ctx with start := 1, len := 0, content := x.toNat }, epo := 0 }
      else if x = 0 then runDeploy pl readDeploy d.forDeploy
      else if x = 1 then runV1 pl d.forV1
      else .err 24 { d with ctx := { d.ctx with start := 1, len := xs.length, content := x.toNat }, epo := 0 } := by
  have hl := h.data_length
  rw [hx] at hl
  simp only [List.length_cons] at hl
  have hpos : u16 d.pos = d.pos := Nat.mod_eq_of_lt (by have := h.2; omega)
  unfold parserParse
  rw [bind_run, show parserInit d = if u16 d.pos = 0 then
      .err 2 { d with ctx := { d.ctx with start := 0, len := 0 } } else
      .ok () { d with ctx := { d.ctx with start := 0, len := u16 d.pos }, epo := 0 } from rfl, hpos,
    if_neg (by omega), Res.bind_ok, bind_run]
  have hr : runP pl readU8 { d with ctx := { d.ctx with start := 0, len := d.pos }, epo := 0 } =
      .ok x.toNat { d with ctx := { d.ctx with start := 0, len := d.pos }, epo := 0 } := by
    unfold runP
    rw [readU8_at (x := x) (xs := xs)]
    show At ((d.mem.drop 0).take d.pos) 0 (x :: xs)
    rw [List.drop_zero, show d.mem.take d.pos = d.data from rfl, hx]
    exact .self _
  rw [hr]
  simp only [Res.bind_ok, bind_run, modify_run, get_run]
  have hx0 : (x.toNat = 0) = (x = 0) := propext ⟨fun h => UInt8.toNat_inj.1 h, fun h => by rw [h]; rfl⟩
  have hx1 : (x.toNat = 1) = (x = 1) := propext ⟨fun h => UInt8.toNat_inj.1 h, fun h => by rw [h]; rfl⟩
  by_cases hn : xs = []
  · subst hn
    have : d.pos - 1 = 0 := by simp at hl; omega
    rw [if_pos rfl, this]
    rfl
  · have : ¬ d.pos - 1 = 0 := by
      intro h; apply hn; apply List.length_eq_zero_iff.1; omega
    have hl' : xs.length = d.pos - 1 := by omega
    rw [if_neg this, if_neg hn, hl']
    by_cases h0 : x = 0
    · subst h0; rfl
    by_cases h1 : x = 1
    · subst h1; rfl
    simp only [hx0, hx1, if_neg h0, if_neg h1]
    rfl

end Casper
