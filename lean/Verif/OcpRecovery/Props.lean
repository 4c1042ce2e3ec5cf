import Verif.OcpRecovery.ReadCtl
import Verif.OcpRecovery.BusLemmas
/-! C93–C96: the properties of the OCP recovery interface. -/
namespace Verif.OcpRecovery
open Verif.Flash (Mem FS Dev)

/-- A device that was initialised with the given regions. -/
structure Started (env : Env) (w0 w : World) : Prop where
  plat : Platform env w0
  first : FlashFirst env
  init : ∃ n, initState env w0 = some (.ok n, w)

/-- A state that some history leads to. -/
def Reachable (env : Env) (w : World) : Prop := ∃ w0 w1 os rs, Started env w0 w1 ∧ run env os w1 = some (rs, w)

theorem Started.inv {env : Env} {w0 w : World} (h : Started env w0 w) : Inv env w ∧ w.mem = w0.mem ∧ w.fs = w0.fs ∧
    (OneFlash env → MarkInv env w) := by
  obtain ⟨n, e⟩ := h.init
  obtain ⟨st, w', e', h1, h2, h3⟩ := initState_safe env w0 h.plat h.first
  rw [e] at e'
  cases e'
  exact ⟨(h3 ⟨n, rfl⟩).1, h1, h2, (h3 ⟨n, rfl⟩).2⟩

theorem Reachable.inv {env : Env} {w : World} (h : Reachable env w) : Inv env w := by
  obtain ⟨w0, w1, os, rs, hs, hr⟩ := h
  obtain ⟨rs', w', e, hi, -⟩ := run_safe env os w1 hs.inv.1
  rw [hr] at e
  cases e
  exact hi

/-! ### C93: the memory windows -/

/-- Initialisation ends, and changes neither memory nor flash. -/
theorem init_returns (env : Env) (w0 : World) (hp : Platform env w0) (hf : FlashFirst env) :
    ∃ st w, initState env w0 = some (st, w) ∧ w.mem = w0.mem ∧ w.fs = w0.fs := by
  obtain ⟨st, w, e, h1, h2, -⟩ := initState_safe env w0 hp hf
  exact ⟨st, w, e, h1, h2⟩

/-- Whatever a host sends in whatever order, every call ends and none leaves its buffers; regions the host may not write and the
memory behind every region stay as they are. -/
theorem history_confined (env : Env) (w0 w1 : World) (hs : Started env w0 w1) (os : List Op) :
    ∃ rs w, run env os w1 = some (rs, w) ∧ (∀ i, ¬ Writable env i → w.mem i = w0.mem i) ∧
      (∀ i, (w.mem i).length = (w0.mem i).length) ∧
      ∀ i c, region env i = some c → (w.mem i).drop c.length = (w0.mem i).drop c.length := by
  obtain ⟨hi, hm, -, -⟩ := hs.inv
  obtain ⟨rs, w, e, -, hf⟩ := run_safe env os w1 hi
  refine ⟨rs, w, e, fun i h => by rw [hf.ro i h, hm], fun i => by rw [hf.lens i, hm], fun i c h => by rw [hf.tail i c h, hm]⟩

/-- With a single flash region of whole sectors, flash outside that region is never changed, and not at all if the host may not write
the region. Flash operations may fail in any way. -/
theorem flash_confined (env : Env) (w0 w1 : World) (hs : Started env w0 w1) (ho : OneFlash env) (os : List Op) :
    ∃ rs w, run env os w1 = some (rs, w) ∧ ∀ a, ¬ InFlashWindow env a → w.fs.mem a = w0.fs.mem a := by
  obtain ⟨hi, -, hfs, hmk⟩ := hs.inv
  obtain ⟨rs, w, e, -, hf⟩ := run_safe env os w1 hi
  exact ⟨rs, w, e, fun a ha => by rw [(hf.flash ho (hmk ho)).2 a ha, hfs]⟩

/-- Data written to a memory region goes to the selected position and on from there, and from the end of the region to its start; the
position then moves to the next multiple of four. Nothing else changes. -/
theorem memory_write_exact (env : Env) (w : World) (h : Reachable env w) (d : Bytes) (c : Cms)
    (hc : region env w.ctl.cms.toNat = some c) (hty : c.type = 0 ∨ c.type = 5) (ht : c.target = .buffer) (ha : w.ctl.active = 0x2b) :
    ∃ w', writeRequest env d w = some (.ok 0, w') ∧
      (let s := stream c.length (w.mem w.ctl.cms.toNat) (if c.length ≤ w.ctl.offset then 0 else w.ctl.offset) (decide (c.length ≤ w.ctl.offset)) d
       w'.mem w.ctl.cms.toNat = s.1 ∧ w'.ctl.offset = align4 s.2.1 ∧
         w'.ctl.indirect = if s.2.2 then w.ctl.indirect ||| 1 else w.ctl.indirect) ∧
      (∀ i, i ≠ w.ctl.cms.toNat → w'.mem i = w.mem i) ∧ w'.fs = w.fs ∧ w'.hw = w.hw := by
  have hi := h.inv
  obtain ⟨hf, h0, hm⟩ := hi.plat.buffers _ c hc ht
  obtain ⟨h4, -⟩ := hi.rw _ c hc hty
  obtain ⟨cs, hcs, hcs'⟩ : ∃ cs, env.cms = some cs ∧ cs[w.ctl.cms.toNat]? = some c := by
    unfold region at hc
    cases h : env.cms with
    | none => rw [h] at hc; simp at hc
    | some cs => rw [h] at hc; exact ⟨cs, rfl, hc⟩
  have e := write_mem env w d cs c hcs hcs' hty ht hf h0 h4 (hi.plat.sizes _ c hc) hm hi.off
  refine ⟨inactive (stored w.ctl.cms.toNat c.length d w), ?_, ⟨?_, rfl, rfl⟩, ?_, rfl, rfl⟩
  · unfold writeRequest writeSwitch
    rw [ha, if_neg (by decide), if_neg (by decide), if_neg (by decide), if_neg (by decide), if_pos rfl, e]
    rfl
  · simp [inactive, stored, setAt, startPos]
  · intro i hne
    simp [inactive, stored, setAt, hne]

/-- An image sent in pieces is what the region then holds. -/
theorem upload_stores (env : Env) (w : World) (h : Reachable env w) (i : UInt8) (c : Cms) (hc : region env i.toNat = some c)
    (hty : c.type = 0 ∨ c.type = 5) (hk : (∃ b, c.target = .flash b) → FlashOk env c) (ds : List Bytes) (hq : Quads ds)
    (hd : ∀ d ∈ ds, d ≠ [] ∧ d.length ≤ 255) (hfit : ds.flatten.length ≤ c.length) :
    ∃ rs w', run env (select i 0 ++ upload ds) w = some (rs, w') ∧ (∀ r ∈ rs, r = .status (.ok 0)) ∧
      w'.ctl.proto = w.ctl.proto ∧ (content w' i.toNat c).take ds.flatten.length = ds.flatten := by
  have hi := h.inv
  have hsome : env.cms.isSome := by
    unfold region at hc
    cases hcs : env.cms with
    | none => rw [hcs] at hc; simp at hc
    | some cs => rfl
  have hsel := run_select env i 0 w hsome (by decide)
  obtain ⟨rs, w', e, h1, -, -, h4, -, h6⟩ := run_upload env c i hc hty hk ds
    { w with ctl := { w.ctl with active := 0, cms := i, reserved := 0, offset := align4 0 } } [] ⟨hi.plat.mono fun _ => rfl, hi.rw, rfl⟩ rfl
    (fun _ _ => Or.inl rfl) rfl rfl hq hd (by simpa using hfit)
  have hrun := run_append env _ _ _ _ _ _ _ hsel e
  refine ⟨_, w', hrun, ?_, h4, by simpa using h6⟩
  intro r hr
  rcases List.mem_append.mp hr with h | h
  · simp only [List.mem_cons, List.not_mem_nil, or_false] at h
    rcases h with h | h <;> exact h
  · exact h1 r h

/-- Fetching pieces until the end of a region gives its content, filled with zero to a multiple of four; memory and flash stay as they
are. -/
theorem download_delivers (env : Env) (w : World) (h : Reachable env w) (i : UInt8) (c : Cms) (D : Bytes) (hc : region env i.toNat = some c)
    (hs : Source env w i.toNat c D) (hlen : D.length < 2 ^ 32 - 4) :
    ∃ rs w', run env (select i 0 ++ download ((D.length + 251) / 252)) w = some (rs, w') ∧ fetched rs = padded D ∧
      w'.mem = w.mem ∧ w'.fs.mem = w.fs.mem := by
  have hi := h.inv
  have hsome : env.cms.isSome := by
    unfold region at hc
    cases hcs : env.cms with
    | none => rw [hcs] at hc; simp at hc
    | some cs => rfl
  have hsel := run_select env i 0 w hsome (by decide)
  obtain ⟨h0, -⟩ := hs.length hi.plat hc
  obtain ⟨rs, w', e, -, h2, -, h4⟩ := run_download env c i D hc ((D.length + 251) / 252)
    { w with ctl := { w.ctl with active := 0, cms := i, reserved := 0, offset := align4 0 } } ⟨hi.plat.mono fun _ => rfl, hi.rw, rfl⟩ rfl
    (hs.same ⟨rfl, rfl, rfl⟩) h0 hlen rfl
  have hrun := run_append env _ _ _ _ _ _ _ hsel e
  refine ⟨_, w', hrun, ?_, h2.mem, h2.fs⟩
  show fetched ([.status (.ok 0), .status (.ok 0)] ++ rs) = _
  simpa [fetched, align4] using h4

/-! ### C94: hardware actions -/

/-- The resets and activations the hardware is asked for are exactly those the history of requests contains. -/
theorem history_actions (env : Env) (os : List Op) : ∀ (w w' : World) (rs : List Out), run env os w = some (rs, w') →
    w'.hw = w.hw ++ asked env w.ctl.active os := by
  induction os with
  | nil => intro w w' rs h; cases h; simp [asked]
  | cons o os ih =>
    intro w w' rs h
    simp only [run] at h
    cases hs : step env o w with
    | none => rw [hs] at h; cases h
    | some x =>
      obtain ⟨r, w1⟩ := x
      rw [hs] at h
      simp only at h
      cases hr : run env os w1 with
      | none => rw [hr] at h; cases h
      | some y =>
        rw [hr] at h
        cases h
        rw [ih w1 _ _ hr]
        suffices hh : w1.hw = w.hw ++ actionOf env w.ctl.active o ∧ w1.ctl.active = activeAfter w.ctl.active o by
          rw [hh.1, hh.2]
          simp only [asked, List.append_assoc]
        cases o with
        | command c =>
          simp only [step, Option.some.injEq, Prod.mk.injEq] at hs
          obtain ⟨-, rfl⟩ := hs
          simp only [activeAfter, actionOf, List.append_nil]
          by_cases hu : Unknown c
          · rw [if_pos hu, startCommand, if_pos (show c < 0x22 ∨ c > 0x2c from hu)]; exact ⟨rfl, rfl⟩
          · rw [if_neg hu, startCommand, if_neg (show ¬ (c < 0x22 ∨ c > 0x2c) from hu)]; exact ⟨rfl, rfl⟩
        | write d =>
          simp only [step] at hs
          cases hw : writeRequest env d w with
          | none => rw [hw] at hs; cases hs
          | some x =>
            obtain ⟨st, w2⟩ := x
            rw [hw] at hs
            cases hs
            have hres := writeRequest_result env d w _ st hw
            exact ⟨hres.hw, hres.done⟩
        | read =>
          simp only [step] at hs
          cases hw : readRequest env w with
          | none => rw [hw] at hs; cases hs
          | some x =>
            obtain ⟨st, w2⟩ := x
            rw [hw] at hs
            cases hs
            obtain ⟨g1, -, -, -, g5⟩ := readRequest_result env w _ _ hw
            exact ⟨by simpa [actionOf] using g1, g5⟩
        | badChecksum => cases hs; exact ⟨by simp [checksumFailure, actionOf], rfl⟩
        | badLength => cases hs; exact ⟨by simp [lengthFailure, actionOf], rfl⟩

/-- The recovery status follows from the last activation. -/
theorem recovery_status (env : Env) (o : Op) (w w' : World) (r : Out) (h : step env o w = some (r, w')) :
    w'.ctl.recovery = match o with
      | .write d => recoveryAfter env w.ctl.active d (fun i => (env.activate w.tick i).map (·.2)) w.ctl.recovery
      | _ => w.ctl.recovery := by
  cases o with
  | command c =>
    simp only [step, Option.some.injEq, Prod.mk.injEq] at h
    obtain ⟨-, rfl⟩ := h
    unfold startCommand
    split <;> rfl
  | write d =>
    simp only [step] at h
    cases hw : writeRequest env d w with
    | none => rw [hw] at h; cases h
    | some x =>
      obtain ⟨st, w2⟩ := x
      rw [hw] at h
      cases h
      exact (writeRequest_result env d w _ st hw).recovery
  | read =>
    simp only [step] at h
    cases hw : readRequest env w with
    | none => rw [hw] at h; cases h
    | some x =>
      obtain ⟨st, w2⟩ := x
      rw [hw] at h
      cases h
      exact (readRequest_result env w _ _ hw).2.1
  | badChecksum => cases h; rfl
  | badLength => cases h; rfl

/-! ### C95: the error report -/

/-- The report is the kind of the last error since the host last read the status, if the host sent no unknown command code. -/
theorem history_report_partial (env : Env) (hF : Foreign env) (os : List Op) : ∀ (w w' : World) (rs : List Out),
    run env os w = some (rs, w') → (∀ c, Op.command c ∈ os → ¬ Unknown c) →
    w'.ctl.proto = report env w.ctl.active w.ctl.cms w.ctl.proto os := by
  induction os with
  | nil => intro w w' rs h _; cases h; rfl
  | cons o os ih =>
    intro w w' rs h hk
    simp only [run] at h
    cases hs : step env o w with
    | none => rw [hs] at h; cases h
    | some x =>
      obtain ⟨r, w1⟩ := x
      rw [hs] at h
      simp only at h
      cases hr : run env os w1 with
      | none => rw [hr] at h; cases h
      | some y =>
        rw [hr] at h
        cases h
        rw [ih w1 _ _ hr (fun c hc => hk c (List.mem_cons_of_mem _ hc))]
        cases o with
        | command c =>
          have hn : ¬ Unknown c := hk c (by simp)
          simp only [step, Option.some.injEq, Prod.mk.injEq] at hs
          obtain ⟨-, rfl⟩ := hs
          simp only [report, activeAfter, if_neg hn]
          unfold startCommand
          rw [if_neg (show ¬ (c < 0x22 ∨ c > 0x2c) from hn)]
        | write d =>
          simp only [step] at hs
          cases hw : writeRequest env d w with
          | none => rw [hw] at hs; cases hs
          | some x =>
            obtain ⟨st, w2⟩ := x
            rw [hw] at hs
            cases hs
            have hres := writeRequest_result env d w _ st hw
            simp only [report, activeAfter]
            rw [hres.proto hF, hres.sel, hres.done]
        | read =>
          simp only [step] at hs
          cases hw : readRequest env w with
          | none => rw [hw] at hs; cases hs
          | some x =>
            obtain ⟨st, w2⟩ := x
            rw [hw] at hs
            cases hs
            obtain ⟨-, -, g3, g4, g5⟩ := readRequest_result env w _ _ hw
            simp only [report, activeAfter]
            rw [g3 hF, g4, g5]
            rfl
        | badChecksum => cases hs; rfl
        | badLength => cases hs; rfl

/-- The status command answers with the report and clears it. -/
theorem status_shows_report (env : Env) (w : World) (ha : w.ctl.active = 0x24) :
    ∃ d w', readRequest env w = some (.ok d, w') ∧ d.getD 1 0 = w.ctl.proto ∧ w'.ctl.proto = 0 := by
  unfold readRequest readSwitch
  simp only [ha]
  exact ⟨_, _, rfl, rfl, rfl⟩

/-- An unknown command code is refused and reported, if there is no unread report. -/
theorem unknown_command_partial (w : World) (c : UInt8) (hc : Unknown c) (hp : w.ctl.proto = 0) :
    (startCommand c w).1 = .err eNack ∧ (startCommand c w).2.ctl.proto = 1 := by
  unfold startCommand
  rw [if_pos (show c < 0x22 ∨ c > 0x2c from hc)]
  exact ⟨rfl, by simp [hp]⟩

/-! ### C96: framing on the bus -/

/-- Whatever happens on the bus, in whatever order, it is handled without leaving the buffers, and comes down to a sequence of calls of
the handler with at most 255 bytes each. -/
theorem bus_safe (env : Env) (w : World) (h : Reachable env w) (hv : ∀ t, (env.deviceStatus t).2.2.length = 5) (es : List Event) :
    ∃ b' w' os rs, busRun env es (Bus.init, w) = some (b', w') ∧ (∀ o ∈ os, Fits o) ∧ run env os w = some (rs, w') := by
  obtain ⟨s', os, rs, e, -, -, -, h1, h2⟩ := busRun_safe env hv es (Bus.init, w)
    ⟨by unfold Bus.init; rw [List.length_replicate], by show (0 : Int) ≤ 257; decide⟩ h.inv
  exact ⟨s'.1, s'.2, os, rs, e, h1, h2⟩

theorem busRun_bytes (env : Env) : ∀ (d : Bytes) (b : Bus) (w : World) (es : List Event),
    busRun env (d.map .byte ++ es) (b, w) = busRun env es (receiveAll d b w) := by
  intro d
  induction d with
  | nil => intro b w es; rfl
  | cons x d ih =>
    intro b w es
    simp only [List.map_cons, List.cons_append, busRun, busStep, Option.bind_some, receiveAll]
    exact ih _ _ _

/-- A write transaction does to the device what its bytes say: the code must be known, the number of bytes must be right, and the
checksum, if there is one, must be right; otherwise nothing but the report changes. Full claim: for all byte counts; see
`long_block_refused` and `long_block_accepted` for 255 bytes with a checksum. -/
theorem write_transaction_partial (env : Env) (addr cmd : UInt8) (d : Bytes) (b : Bus) (w : World) (h : ¬ (d.getD 0 0 = 255 ∧ d.length = 257)) :
    (busRun env (.start addr :: (cmd :: d).map .byte ++ [.stop]) (b, w)).map (·.2) = served env addr cmd d w := by
  have ht := (transaction env addr cmd d b w h).1
  rw [List.cons_append]
  simp only [busRun, busStep, Option.bind_some]
  rw [busRun_bytes]
  simp only [busRun, busStep]
  rw [← ht]
  generalize receiveAll (cmd :: d) (start addr b) w = p
  cases stop env p.1 p.2 <;> rfl

/-- A read transaction sends the number of bytes, the response and the checksum of the whole transaction. Full claim: for all
responses; see `long_response_pec` for one of 255 bytes. -/
theorem read_transaction_partial (env : Env) (addr cmd : UInt8) (b : Bus) (w w' : World) (r : Except Nat Bytes) (hc : ¬ Unknown cmd)
    (hr : readRequest env { w with ctl := { w.ctl with active := cmd } } = some (r, w')) (d : Bytes)
    (hd : d = match r with | .ok d => d | .error _ => []) (hl : d.length ≤ 254) :
    ∃ b', busRun env [.start addr, .byte cmd, .send addr] (b, w) = some (b', w') ∧
      b'.buf.take (d.length + 2) =
        [UInt8.ofNat d.length] ++ d ++ [pec ([addr <<< 1, cmd, (addr <<< 1) ||| 1, UInt8.ofNat d.length] ++ d)] := by
  have hd' : d = answered r := by rw [hd]; cases r <;> rfl
  obtain ⟨b', e, h1⟩ := block_read env addr cmd b w w' r hc hr d hd' hl
  refine ⟨b', ?_, h1⟩
  simp only [busRun, busStep, Option.bind_some, e]

end Verif.OcpRecovery
