import Verif.OcpRecovery.Props
/-! Concrete devices: the hypotheses of the theorems are met, and where the properties fail. -/
namespace Verif.OcpRecovery
open Verif.Flash (Mem FS Dev)

/-- A flash device with sectors of 4096 bytes whose operations all succeed. -/
def goodFlash : Dev := ⟨65536, 4096, 256, fun _ => .ok⟩

/-- A device with the given regions that supports everything. -/
def demo (cs : List Cms) : Env where
  cms := some cs
  hasReset := true
  hasMgmt := true
  hasActivate := true
  hasForced := true
  activate := fun t _ => if t = 7 then some (9, true) else none
  deviceId := fun _ => .ok (List.replicate 24 7)
  deviceStatus := fun _ => (1, 2, [1, 2, 3, 4, 5])
  varSize := fun _ _ => .ok 10
  varData := fun _ _ o n => .ok (([1, 2, 3, 4, 5, 6, 7, 8, 9, 10].drop o).take n)
  flash := goodFlash
  flashSize := 0x100000
  flashErr := 77
  sectorFails := fun _ => false

/-- Flash that holds zero everywhere, 16 bytes of memory for each region. -/
def fresh : World := ⟨Ctl.zero, fun _ => List.replicate 16 0xee, ⟨fun _ => 0, 0⟩, fun _ => 0, [], 0⟩

def codeFlash : Cms := ⟨.flash 0x1000, 0x2000, 0, true⟩
def codeRam : Cms := ⟨.buffer, 12, 0, false⟩
def logRam : Cms := ⟨.buffer, 8, 1, false⟩
def logVar : Cms := ⟨.provider, 0, 1, false⟩

/-- A flash region, a memory region for images, a log in memory and a provided log. -/
def four : Env := demo [codeFlash, codeRam, logRam, logVar]

theorem four_region (i : Nat) (c : Cms) (h : region four i = some c) :
    (i = 0 ∧ c = codeFlash) ∨ (i = 1 ∧ c = codeRam) ∨ (i = 2 ∧ c = logRam) ∨ (i = 3 ∧ c = logVar) := by
  match i, h with
  | 0, h => cases h; simp
  | 1, h => cases h; simp
  | 2, h => cases h; simp
  | 3, h => cases h; simp
  | n + 4, h => simp [region, four, demo] at h

theorem four_platform : Platform four fresh where
  buffers := by
    intro i c h ht
    rcases four_region i c h with ⟨rfl, rfl⟩ | ⟨rfl, rfl⟩ | ⟨rfl, rfl⟩ | ⟨rfl, rfl⟩ <;> simp_all [codeFlash, codeRam, logRam, logVar, fresh]
  providers := by
    intro i c h ht
    rcases four_region i c h with ⟨rfl, rfl⟩ | ⟨rfl, rfl⟩ | ⟨rfl, rfl⟩ | ⟨rfl, rfl⟩ <;> simp_all [codeFlash, codeRam, logRam, logVar, fresh]
  flashes := by
    intro i c b h ht
    rcases four_region i c h with ⟨rfl, rfl⟩ | ⟨rfl, rfl⟩ | ⟨rfl, rfl⟩ | ⟨rfl, rfl⟩ <;> simp_all [codeFlash, codeRam, logRam, logVar, fresh]
  sizes := by
    intro i c h
    rcases four_region i c h with ⟨rfl, rfl⟩ | ⟨rfl, rfl⟩ | ⟨rfl, rfl⟩ | ⟨rfl, rfl⟩ <;> simp [codeFlash, codeRam, logRam, logVar]
  data := by
    intro t i o d h
    cases h
    rw [List.length_take]; omega
  ident := by intro t d h; cases h; simp

theorem four_first : FlashFirst four := fun _ _ _ _ _ => ⟨codeFlash, 0x1000, rfl, rfl⟩

theorem four_one : OneFlash four where
  only := by
    intro i c b h ht
    rcases four_region i c h with ⟨rfl, rfl⟩ | ⟨rfl, rfl⟩ | ⟨rfl, rfl⟩ | ⟨rfl, rfl⟩ <;> simp_all [codeFlash, codeRam, logRam, logVar]
  sectors := by
    intro c b h ht
    cases h
    cases ht
    decide
  size := by decide

/-- The device after initialisation. -/
def ready : World := ((initState four fresh).map (·.2)).getD fresh

theorem four_started : Started four fresh ready := ⟨four_platform, four_first, ⟨0, rfl⟩⟩

/-- The hypotheses of `history_confined` and `flash_confined` are met, by a device whose image region is in flash. -/
example : Started four fresh ready ∧ OneFlash four ∧ Writable four 1 ∧ ¬ Writable four 2 ∧ InFlashWindow four 0x1004 := by
  refine ⟨four_started, four_one, ⟨codeRam, rfl, Or.inl rfl⟩, ?_, ⟨0, codeFlash, 0x1000, rfl, rfl, Or.inl rfl, by decide, by decide⟩⟩
  rintro ⟨c, hc, ht⟩
  cases hc
  rcases ht with h | h <;> cases h

theorem ready_reachable : Reachable four ready := ⟨fresh, ready, [], [], four_started, rfl⟩

/-- Seven bytes at position 8 of a region of twelve: four at the end and three at the start. -/
example : (run four (select 1 8 ++ upload [[1, 2, 3, 4, 5, 6, 7]]) ready).map (fun x => (x.2.mem 1, x.2.ctl.offset, x.2.ctl.indirect)) =
    some ([5, 6, 7, 0xee, 0xee, 0xee, 0xee, 0xee, 1, 2, 3, 4, 0xee, 0xee, 0xee, 0xee], 4, 1) := by decide +kernel

/-- The hypotheses of `memory_write_exact` are met. -/
example : ∃ w, Reachable four w ∧ region four w.ctl.cms.toNat = some codeRam ∧ w.ctl.active = 0x2b ∧ w.ctl.offset = 8 :=
  ⟨_, ⟨fresh, ready, select 1 8 ++ [.command 0x2b], _, four_started, rfl⟩, rfl, rfl, rfl⟩

/-- The hypotheses of `upload_stores` are met by the flash region. -/
example : FlashOk four codeFlash ∧ Quads [[1, 2, 3, 4], [5, 6, 7]] :=
  ⟨⟨⟨fun _ => rfl, fun _ => rfl⟩, fun b h => by cases h; exact ⟨by decide, by decide, by decide, by decide⟩, by decide, by decide⟩, rfl, trivial⟩

/-- The hypotheses of `download_delivers` are met by a memory region and by a provided log. -/
example : Source four ready 1 codeRam (List.replicate 12 0xee) ∧ Source four ready 3 logVar [1, 2, 3, 4, 5, 6, 7, 8, 9, 10] := by
  refine ⟨rfl, fun _ => rfl, fun _ _ => rfl, by simp, by decide⟩

example : (run four (select 3 0 ++ download 1) ready).map (fun x => fetched x.1) = some [1, 2, 3, 4, 5, 6, 7, 8, 9, 10, 0, 0] := by decide +kernel

/-! ### Where the regions are not confined -/

/-- **Failure**: `device->cms->flash` is used instead of `device->cms[i].flash`, so with a flash region that is not the first one,
initialisation takes the buffer of the first region for a flash descriptor. -/
theorem flash_behind_memory : Platform (demo [codeRam, codeFlash]) fresh ∧ initState (demo [codeRam, codeFlash]) fresh = none := by
  have hreg : ∀ i c, region (demo [codeRam, codeFlash]) i = some c → (i = 0 ∧ c = codeRam) ∨ (i = 1 ∧ c = codeFlash) := by
    intro i c h
    match i, h with
    | 0, h => cases h; simp
    | 1, h => cases h; simp
    | n + 2, h => simp [region, demo] at h
  refine ⟨⟨?_, ?_, ?_, ?_, ?_, ?_⟩, rfl⟩
  · intro i c h ht
    rcases hreg i c h with ⟨rfl, rfl⟩ | ⟨rfl, rfl⟩ <;> simp_all [codeFlash, codeRam, fresh]
  · intro i c h ht
    rcases hreg i c h with ⟨rfl, rfl⟩ | ⟨rfl, rfl⟩ <;> simp_all [codeFlash, codeRam]
  · intro i c b h ht
    rcases hreg i c h with ⟨rfl, rfl⟩ | ⟨rfl, rfl⟩ <;> simp_all [codeFlash, codeRam]
  · intro i c h
    rcases hreg i c h with ⟨rfl, rfl⟩ | ⟨rfl, rfl⟩ <;> simp [codeFlash, codeRam]
  · intro t i o d h; cases h; rw [List.length_take]; omega
  · intro t d h; cases h; simp

/-- A protected image in flash before the region for recovery images. -/
def golden : Cms := ⟨.flash 0, 0x1000, 6, true⟩
def twoFlash : Env := demo [golden, codeFlash]
def readyTwo : World := ((initState twoFlash fresh).map (·.2)).getD fresh

theorem twoFlash_started : Started twoFlash fresh readyTwo := by
  have hreg : ∀ i c, region twoFlash i = some c → (i = 0 ∧ c = golden) ∨ (i = 1 ∧ c = codeFlash) := by
    intro i c h
    match i, h with
    | 0, h => cases h; simp
    | 1, h => cases h; simp
    | n + 2, h => simp [region, twoFlash, demo] at h
  refine ⟨⟨?_, ?_, ?_, ?_, ?_, ?_⟩, fun _ _ _ _ _ => ⟨golden, 0, rfl, rfl⟩, ⟨0, rfl⟩⟩
  · intro i c h ht
    rcases hreg i c h with ⟨rfl, rfl⟩ | ⟨rfl, rfl⟩ <;> simp_all [codeFlash, golden]
  · intro i c h ht
    rcases hreg i c h with ⟨rfl, rfl⟩ | ⟨rfl, rfl⟩ <;> simp_all [codeFlash, golden]
  · intro i c b h ht
    rcases hreg i c h with ⟨rfl, rfl⟩ | ⟨rfl, rfl⟩
    · decide
    · decide
  · intro i c h
    rcases hreg i c h with ⟨rfl, rfl⟩ | ⟨rfl, rfl⟩ <;> simp [codeFlash, golden]
  · intro t i o d h; cases h; rw [List.length_take]; omega
  · intro t d h; cases h; simp

/-- **Failure**: the mark of the second flash region starts at the base of the first one. A host that continues at position 4 of the
second region erases the first one, which it may not write. -/
theorem second_region_erases_first : Started twoFlash fresh readyTwo ∧ ¬ Writable twoFlash 0 ∧ fresh.fs.mem 5 = 0 ∧
    (run twoFlash (select 1 4 ++ upload [[1, 2, 3, 4]]) readyTwo).map (fun x => x.2.fs.mem 5) = some 0xff := by
  refine ⟨twoFlash_started, ?_, rfl, by decide +kernel⟩
  rintro ⟨c, hc, ht⟩
  cases hc
  rcases ht with h | h <;> cases h

/-- **Failure**: the size of the second flash region is not checked; this one lies behind the end of the device. -/
theorem second_size_unchecked : ∃ w, initState (demo [codeFlash, ⟨.flash 0x200000, 0x1000, 0, true⟩]) fresh = some (.ok 0, w) ∧
    ¬ 0x200000 + 0x1000 ≤ (demo [codeFlash, ⟨.flash 0x200000, 0x1000, 0, true⟩]).flashSize := ⟨_, rfl, by decide⟩

/-- **Failure**: data for a position that was not reached from the start goes to flash that is not erased. All requests succeed, but the
region does not hold the data. -/
theorem jump_corrupts : (run four (select 0 0x1000 ++ upload [[1, 2, 3, 4]]) ready).map
      (fun x => (x.1.all fun o => match o with | .status (.ok _) => true | _ => false, Verif.Flash.bytesAt x.2.fs.mem 0x2000 4)) =
    some (true, [0, 0, 0, 0]) := by decide +kernel

/-- A flash device that stores only two bytes of every write and reports it. -/
def shortFlash : Env := { four with flash := ⟨65536, 4096, 256, fun n => if n = 0 then .ok else .short 2 (fun _ => 0xff)⟩ }

/-- **Failure**: a write that stores fewer bytes than asked for is taken for a success. -/
theorem short_write_accepted : (run shortFlash (select 0 0 ++ upload [[1, 2, 3, 4]]) ready).map
      (fun x => (x.1.all fun o => match o with | .status (.ok _) => true | _ => false, Verif.Flash.bytesAt x.2.fs.mem 0x1000 4)) =
    some (true, [1, 2, 0xff, 0xff]) := by decide +kernel

/-- **Failure**: a region for recovery images whose accesses are polled (types 8 and 0x0d, documented as readable and writable) is
checked at initialisation like the others, but cannot be written or activated. -/
theorem polled_region_refused : ∃ w, initState (demo [⟨.buffer, 12, 8, false⟩]) fresh = some (.ok 0, w) ∧
    (run (demo [⟨.buffer, 12, 8, false⟩]) (select 0 0 ++ [.command 0x2b, .write [1, 2, 3, 4], .command 0x26, .write [0, 1, 0x0f]]) w).map
      (fun x => (x.1.filterMap fun o => match o with | .status (.err e) => some e | _ => none, x.2.mem 0, x.2.ctl.recovery)) =
    some ([eRoCms, eNotCode], fresh.mem 0, 0x0f) := ⟨_, rfl, by decide +kernel⟩

/-! ### Actions and report -/

/-- A forced reset and an activation, with requests between that ask for nothing. -/
example : asked four 0 [.command 0x25, .write [1, 0x0f, 0], .command 0x26, .write [2, 1, 0x0f], .command 0x26, .write [1, 1, 0x0f], .write [1, 1, 0x0f]] =
    [.resetDevice true, .activate 1] := by decide

/-- An activation that succeeds, one of a log region and one the hardware refuses. -/
example : recoveryAfter four 0x26 [1, 1, 0x0f] (fun _ => none) 1 = 3 ∧ recoveryAfter four 0x26 [2, 1, 0x0f] (fun _ => none) 1 = 0x0f ∧
    recoveryAfter four 0x26 [1, 1, 0x0f] (fun _ => some true) 1 = 0x0d := by decide

theorem four_foreign : Foreign four where
  hw := by
    intro t i c b h
    have : c = 9 := by
      simp only [four, demo] at h
      split at h
      · cases h; rfl
      · cases h
    subst this
    decide
  flash := by decide
  ident := by intro t e h; cases h
  size := by intro t i e h; cases h
  data := by intro t i o e h; cases h

/-- The hypotheses of `history_report_partial` are met; the last of three errors is reported and then cleared. -/
example : Foreign four ∧ report four 0 0 0 [.command 0x25, .write [1, 1], .badChecksum, .command 0x2c, .read] = 1 ∧
    report four 0 0 0 [.command 0x25, .write [1, 1], .command 0x24, .read] = 0 := ⟨four_foreign, by decide, by decide⟩

/-- **Failure**: an unknown command code is added to an unread report by `|=`. After a refused parameter the host reads a wrong length,
after a wrong length still a wrong length, and after a wrong checksum a value that does not exist. -/
theorem unknown_command_mixes :
    (run four [.command 0x25, .write [9, 9, 9], .command 0xff] ready).map (fun x => x.2.ctl.proto) = some 3 ∧
    (run four [.command 0x25, .write [9, 9], .command 0xff] ready).map (fun x => x.2.ctl.proto) = some 3 ∧
    (run four [.badChecksum, .command 0xff] ready).map (fun x => x.2.ctl.proto) = some 5 := by decide +kernel

/-- **Failure**: writing a region the host may not write, and activating an image in one, are errors, but the report says there was
none. -/
theorem refused_region_not_reported :
    (run four (select 2 0 ++ [.command 0x2b, .write [1, 2, 3, 4]]) ready).map (fun x => (x.1.any fun o => match o with | .status (.err e) => e == eRoCms | _ => false, x.2.ctl.proto)) =
      some (true, 0) ∧
    (run four [.command 0x26, .write [2, 1, 0x0f]] ready).map (fun x => (x.1.any fun o => match o with | .status (.err e) => e == eNotCode | _ => false, x.2.ctl.proto)) =
      some (true, 0) := by decide +kernel

/-- **Failure**: an unknown command code leaves the command before it active. The host that sends a code, gives up, sends an unknown
code and then reads is answered as for the first one: here with the capabilities. -/
theorem stale_command : (run four [.command 0x22, .command 0xff, .read] ready).map (fun x => fetched x.1) = some (readProtCap four) := by decide +kernel

/-! ### The bus -/

/-- The hypothesis of `bus_safe` about the hardware is met. -/
example : Reachable four ready ∧ ∀ t, (four.deviceStatus t).2.2.length = 5 := ⟨ready_reachable, fun _ => rfl⟩

/-- A reset over the bus, with the right checksum and with a wrong one. -/
example : (busRun four (.start 0x69 :: ([0x25, 3, 1, 0, 0, pec [0xd2, 0x25, 3, 1, 0, 0]]).map .byte ++ [.stop]) (Bus.init, ready)).map (fun s => (s.2.hw, s.2.ctl.proto)) =
      some ([.resetDevice false], 0) ∧
    (busRun four (.start 0x69 :: ([0x25, 3, 1, 0, 0, pec [0xd2, 0x25, 3, 1, 0, 0] + 1]).map .byte ++ [.stop]) (Bus.init, ready)).map (fun s => (s.2.hw, s.2.ctl.proto)) =
      some ([], 4) := by decide +kernel

/-- Reading the recovery status over the bus. -/
example : (busRun four [.start 0x69, .byte 0x27, .send 0x69] (Bus.init, ready)).map (fun s => s.1.buf.take 4) =
    some [2, 1, 0, pec [0xd2, 0x27, 0xd3, 2, 1, 0]] := by decide +kernel

/-- A block of 255 bytes. -/
def block : Bytes := List.replicate 255 0x5a

/-- A large memory region for images. -/
def large : Env := demo [⟨.buffer, 256, 0, false⟩]
def roomy : World := { fresh with mem := fun _ => List.replicate 256 0 }
def readyLarge : World := ((initState large roomy).map (·.2)).getD roomy

set_option maxRecDepth 100000 in
/-- **Failure**: the length of the checksum is a `uint8_t`, so it covers nothing of a block of 255 bytes: the right checksum is
refused. -/
theorem long_block_refused :
    (busRun large (.start 0x69 :: ([0x2b, 255] ++ block ++ [pec ([0xd2, 0x2b, 255] ++ block)]).map .byte ++ [.stop]) (Bus.init, readyLarge)).map
      (fun s => (s.2.ctl.proto, (s.2.mem 0).getD 0 0)) = some (4, 0) := by decide +kernel

set_option maxRecDepth 100000 in
/-- **Failure**: and the checksum of the address and the command alone is accepted with any data. -/
theorem long_block_accepted :
    (busRun large (.start 0x69 :: ([0x2b, 255] ++ block ++ [pec [0xd2, 0x2b]]).map .byte ++ [.stop]) (Bus.init, readyLarge)).map
      (fun s => (s.2.ctl.proto, (s.2.mem 0).getD 0 0)) = some (0, 0x5a) ∧
    pec [0xd2, 0x2b] ≠ pec ([0xd2, 0x2b, 255] ++ block) := by decide +kernel

/-- A device with an identifier of 255 bytes. -/
def wordy : Env := { four with deviceId := fun _ => .ok block }

set_option maxRecDepth 100000 in
/-- **Failure**: a response of 255 bytes is sent with a checksum that does not cover it. -/
theorem long_response_pec :
    (busRun wordy [.start 0x69, .byte 0x23, .send 0x69] (Bus.init, ready)).map (fun s => s.1.buf.getD 256 0) = some (pec [0xd2, 0x23, 0xd3]) ∧
    pec [0xd2, 0x23, 0xd3] ≠ pec ([0xd2, 0x23, 0xd3, 255] ++ block) := by decide +kernel

end Verif.OcpRecovery
