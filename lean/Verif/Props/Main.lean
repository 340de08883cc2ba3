import Verif.Spec.Main
import Verif.Props.Cli
import Verif.Props.WadParse
import Verif.Props.ComputeExamples
/-!
# C66, C78, C79: reading the input, and the program as a whole
-/

namespace Idc

variable {F : Type} [FloatOps F]

/-! ### C66 -/

/-- **C66** What was read from standard input stays the same whatever happens later, and is everything there was. -/
theorem C66_stdin (w w' : World) (b : InputBuffer) (h : InputBuffer.newFromStdin w = .ok b) : b.bytes w' = w.stdin := by
  unfold InputBuffer.newFromStdin at h
  split at h
  · rename_i v hv
    cases h
    rw [hv]
    rfl
  · cases h

/-- **C66** An input that can be read is read: standard input always, a file unless it is empty. -/
theorem C66_opens (w : World) (path v : Bytes) :
    (w.stdin = some v → ∃ b, InputBuffer.newFromStdin w = .ok b) ∧
    (w.file path = some v → v ≠ [] → ∃ b, InputBuffer.newFromFile w path = .ok b) := by
  constructor
  · intro h
    unfold InputBuffer.newFromStdin
    rw [h]
    exact ⟨_, rfl⟩
  · intro h hv
    unfold InputBuffer.newFromFile
    rw [h]
    dsimp only
    rw [if_neg (by simpa using hv)]
    exact ⟨_, rfl⟩

/-- **C66**, the part that holds for files: as long as the file still starts with what it contained when it was opened, that
is what `bytes` shows.  In full the claim (whatever happens to the file) is false: `C66_file_changed`, `C66_truncated`. -/
theorem C66_file_partial (w w' : World) (path v more : Bytes) (b : InputBuffer) (h : InputBuffer.newFromFile w path = .ok b)
    (hv : w.file path = some v) (hw : w'.file path = some (v ++ more)) : b.bytes w' = some v := by
  unfold InputBuffer.newFromFile at h
  rw [hv] at h
  dsimp only at h
  split at h
  · cases h
  · cases h
    unfold InputBuffer.bytes
    dsimp only
    rw [hw]
    dsimp only
    rw [if_pos (by simp), List.take_append_of_le_length (Nat.le_refl _), List.take_length]

/-- **C66** is false for a file that is overwritten in place: the map shows the new contents. -/
theorem C66_file_changed (w w' : World) (path v v' : Bytes) (b : InputBuffer) (h : InputBuffer.newFromFile w path = .ok b)
    (hv : w.file path = some v) (hw : w'.file path = some v') (hl : v'.length = v.length) : b.bytes w' = some v' := by
  unfold InputBuffer.newFromFile at h
  rw [hv] at h
  dsimp only at h
  split at h
  · cases h
  · cases h
    unfold InputBuffer.bytes
    dsimp only
    rw [hw]
    dsimp only
    rw [if_pos (by omega), ← hl, List.take_length]

/-- **C66** is false for a file that is truncated: reading the bytes kills the process. -/
theorem C66_truncated (w w' : World) (path v v' : Bytes) (b : InputBuffer) (h : InputBuffer.newFromFile w path = .ok b)
    (hv : w.file path = some v) (hw : w'.file path = some v') (hl : v'.length < v.length) : b.bytes w' = none := by
  unfold InputBuffer.newFromFile at h
  rw [hv] at h
  dsimp only at h
  split at h
  · cases h
  · cases h
    unfold InputBuffer.bytes
    dsimp only
    rw [hw]
    dsimp only
    rw [if_neg (by omega)]

/-- **C66** An empty file cannot be opened; empty standard input can be read. -/
theorem C66_empty (w : World) (path : Bytes) (hf : w.file path = some []) (hs : w.stdin = some []) :
    InputBuffer.newFromFile w path = .err .io ∧ InputBuffer.newFromStdin w = .ok (.stdin []) := by
  unfold InputBuffer.newFromFile InputBuffer.newFromStdin
  rw [hf, hs]
  exact ⟨rfl, rfl⟩

/-- A computer with one file, `in.wad`, where everything may be written. -/
def exWorld (contents : Bytes) : World := ⟨some contents, fun p => if p = str "in.wad" then some contents else none, fun _ => true⟩

/-- The situations of C66 occur. -/
theorem C66_hypotheses_met : ∃ b, InputBuffer.newFromFile (exWorld [1, 2, 3]) (str "in.wad") = .ok b ∧
    b.bytes (exWorld [1, 2, 3]) = some [1, 2, 3] ∧ b.bytes (exWorld [1, 2, 3, 4]) = some [1, 2, 3] ∧
    b.bytes (exWorld [7, 8, 9]) = some [7, 8, 9] ∧ b.bytes (exWorld [1]) = none := by
  refine ⟨_, rfl, ?_⟩
  decide

/-! ### C78 -/

theorem openInput_ok {w : World} {file bytes : Bytes} (h : InputIs w file bytes) :
    ∃ input, openInput w file = .ok input ∧ input.bytes w = some bytes := by
  unfold openInput
  rcases h with ⟨h1, h2⟩ | ⟨h1, h2, h3⟩
  · rw [if_pos h1]
    obtain ⟨b, hb⟩ := (C66_opens w file bytes).1 h2
    exact ⟨b, hb, by rw [C66_stdin w w b hb, h2]⟩
  · rw [if_neg h1]
    obtain ⟨b, hb⟩ := (C66_opens w file bytes).2 h2 h3
    exact ⟨b, hb, C66_file_partial w w file bytes [] b hb h2 (by rw [h2, List.append_nil])⟩

theorem openInput_err {w : World} {file : Bytes} (h : ∀ bytes, ¬ InputIs w file bytes) : openInput w file = .err .io := by
  unfold openInput
  split
  · rename_i hf
    unfold InputBuffer.newFromStdin
    cases hs : w.stdin with
    | none => rfl
    | some v => exact absurd (.inl ⟨hf, hs⟩) (h v)
  · rename_i hf
    unfold InputBuffer.newFromFile
    cases hs : w.file file with
    | none => rfl
    | some v =>
      dsimp only
      split
      · rfl
      · rename_i hv
        exact absurd (.inr ⟨hf, hs, by simpa using hv⟩) (h v)

theorem run_ok {pr : Profile} {lib : Lib} {order : List Bytes → List Bytes} {fuel : Nat} {w : World} {args : Args} {bytes : Bytes} {wad : BareWAD}
    (h : InputIs w args.file bytes) (hw : parseWad bytes = .ok wad) :
    (run pr lib order fuel w args : Effects F) = dispatch pr lib order fuel w wad args.sub := by
  obtain ⟨i, h1, h2⟩ := openInput_ok h
  unfold run
  rw [h1]
  dsimp only
  rw [h2]
  dsimp only
  rw [hw]

theorem run_err {pr : Profile} {lib : Lib} {order : List Bytes → List Bytes} {fuel : Nat} {w : World} {args : Args} {bytes : Bytes} {e : ErrorKind}
    (h : InputIs w args.file bytes) (hw : parseWad bytes = .err e) :
    (run pr lib order fuel w args : Effects F) = ⟨[], [], .err e⟩ := by
  obtain ⟨i, h1, h2⟩ := openInput_ok h
  unfold run
  rw [h1]
  dsimp only
  rw [h2]
  dsimp only
  rw [hw]
  rfl

/-- **C78** If there is no input, or it is not a WAD, that is reported, and nothing is printed or written, whatever was asked
for. -/
theorem C78_bad_input (pr : Profile) (lib : Lib) (order : List Bytes → List Bytes) (fuel : Nat) (w : World) (args : Args) :
    ((∀ bytes, ¬ InputIs w args.file bytes) → mainProcess (run pr lib order fuel w args : Effects F) = ⟨[], [], some .io, .status 0⟩) ∧
    (∀ bytes e, InputIs w args.file bytes → parseWad bytes = .err e →
      mainProcess (run pr lib order fuel w args : Effects F) = ⟨[], [], some e, .status 0⟩) := by
  constructor
  · intro h
    unfold run
    rw [openInput_err h]
    rfl
  · intro bytes e h he
    rw [run_err h he]
    rfl

/-- **C78** It makes no difference whether the same bytes are read from a file or from standard input. -/
theorem C78_same_input (pr : Profile) (lib : Lib) (order : List Bytes → List Bytes) (fuel : Nat) (w w' : World) (args args' : Args) (bytes : Bytes)
    (h : InputIs w args.file bytes) (h' : InputIs w' args'.file bytes) (hs : args.sub = args'.sub) (hw : w.writable = w'.writable) :
    (run pr lib order fuel w args : Effects F) = run pr lib order fuel w' args' := by
  rcases C01_parseWad_total bytes with ⟨wad, hp⟩ | ⟨e, hp⟩
  · rw [run_ok h hp, run_ok h' hp, hs]
    unfold dispatch saveUnwrap saveTry
    rw [hw]
  · rw [run_err h hp, run_err h' hp]

/-- **C78** Otherwise `info` does what C75 says and writes nothing. -/
theorem C78_info (pr : Profile) (lib : Lib) (order : List Bytes → List Bytes) (fuel : Nat) (w : World) (file bytes : Bytes) (wad : BareWAD)
    (h : InputIs w file bytes) (hw : parseWad bytes = .ok wad) :
    (run pr lib order fuel w ⟨file, some .info⟩ : Effects F) = ⟨(doInfo F order wad).lines.map .info, [], (doInfo F order wad).outcome⟩ :=
  run_ok (args := ⟨file, some .info⟩) h hw

/-- **C78** Without a subcommand the program prints `????` and reports success. -/
theorem C78_no_subcommand (pr : Profile) (lib : Lib) (order : List Bytes → List Bytes) (fuel : Nat) (w : World) (file bytes : Bytes) (wad : BareWAD)
    (h : InputIs w file bytes) (hw : parseWad bytes = .ok wad) :
    mainProcess (run pr lib order fuel w ⟨file, none⟩ : Effects F) = ⟨[.bogus], [], none, .status 0⟩ := by
  rw [run_ok (args := ⟨file, none⟩) h hw]
  rfl

/-- **C78** `chart` and `route` save the document of C72 and C74 under the name given, if there is one, and nothing else. -/
theorem C78_saves (pr : Profile) (lib : Lib) (order : List Bytes → List Bytes) (fuel : Nat) (w : World) (file bytes out : Bytes) (wad : BareWAD)
    (h : InputIs w file bytes) (hw : parseWad bytes = .ok wad) (ho : w.writable out = true) :
    (∀ d : Chart F, doChart pr fuel wad = .ok (some d) →
      mainProcess (run pr lib order fuel w ⟨file, some (.chart out)⟩) = ⟨[], [(out, .chart d)], none, .status 0⟩) ∧
    (∀ d : RouteDoc F, doRoute lib fuel wad = .ok (some d) →
      mainProcess (run pr lib order fuel w ⟨file, some (.route out)⟩) = ⟨[], [(out, .route d)], none, .status 0⟩) := by
  constructor
  · intro d hd
    rw [run_ok (args := ⟨file, some (.chart out)⟩) h hw]
    simp only [dispatch, hd, saveIf, saveUnwrap, ho, if_true]
    rfl
  · intro d hd
    rw [run_ok (args := ⟨file, some (.route out)⟩) h hw]
    simp only [dispatch, hd, saveIf, saveUnwrap, ho, if_true]
    rfl

/-- **C78**, end to end: `chart` on a file (or standard input) that stores some maps as a WAD usually does saves the drawing
of the first map, and nothing else, and succeeds. -/
theorem C78_chart_file (pr : Profile) (lib : Lib) (order : List Bytes → List Bytes) (w : World) (file out name : Bytes) (b : BareDoomMap)
    (rest : List (Bytes × BareDoomMap))
    (hg : ∀ p ∈ (name, b) :: rest, GoodNames p.2) (hn : ∀ p ∈ (name, b) :: rest, (mapNameOf p.1).isSome)
    (hf : FitsWad ((name, b) :: rest)) (hw : WellFormed b)
    (h : InputIs w file (encodeWad .PWAD (allLumps ((name, b) :: rest)))) (ho : w.writable out = true) :
    ∃ (m : FullMap F) (doc : SvgDoc F), FullMap.fromBare b = .ok m ∧
      (∀ fuel, b.lines.length ≤ fuel →
        mainProcess (run pr lib order fuel w ⟨file, some (.chart out)⟩) = ⟨[], [(out, .chart (.full doc))], none, .status 0⟩) ∧
      ∃ lines things sectors, doc.shapes = lines ++ things ++ sectors ∧ Matches m.lines lines (fun _ => LineDrawn m) ∧
        Matches m.things things (fun _ => ThingDrawn) ∧ Matches m.sectors sectors (SectorDrawn m) := by
  obtain ⟨wad, m, doc, h1, h2, h3, h4⟩ := C72_chart_file (F := F) pr name b rest hg hn hf hw
  exact ⟨m, doc, h2, fun fuel hl => (C78_saves pr lib order fuel w file _ out wad h h1 ho).1 _ (h3 fuel hl), h4⟩

/-- **C78** A run writes nothing but the file it was asked to write (`shapeops`: a file of a fixed name), at most once, and
only where that is allowed. -/
theorem C78_writes_only (pr : Profile) (lib : Lib) (order : List Bytes → List Bytes) (fuel : Nat) (w : World) (args : Args) :
    (run pr lib order fuel w args : Effects F).saved.length ≤ 1 ∧
    ∀ x ∈ (run pr lib order fuel w args : Effects F).saved, Outputs args x.1 ∧ w.writable x.1 = true := by
  have key : ∀ {α : Type} (r : Res (Option α)) (save : α → Effects F) (P : Bytes → Prop),
      (∀ d, (save d).saved.length ≤ 1 ∧ ∀ x ∈ (save d).saved, P x.1 ∧ w.writable x.1 = true) →
      (saveIf r save).saved.length ≤ 1 ∧ ∀ x ∈ (saveIf r save).saved, P x.1 ∧ w.writable x.1 = true := by
    intro α r save P hs
    rcases r with (_ | d) | _ | _ | _
    · exact ⟨Nat.zero_le _, by intro x hx; cases hx⟩
    · exact hs d
    all_goals exact ⟨Nat.zero_le _, by intro x hx; cases hx⟩
  have nothing : ∀ r : Res Unit, ((Effects.ends r : Effects F)).saved.length ≤ 1 ∧
      ∀ x ∈ (Effects.ends r : Effects F).saved, Outputs args x.1 ∧ w.writable x.1 = true :=
    fun r => ⟨Nat.zero_le _, by intro x hx; cases hx⟩
  have one : ∀ (name : Bytes) (s : Saved F), Outputs args name →
      ((saveUnwrap w name s).saved.length ≤ 1 ∧ ∀ x ∈ (saveUnwrap w name s).saved, Outputs args x.1 ∧ w.writable x.1 = true) ∧
      ((saveTry w name s).saved.length ≤ 1 ∧ ∀ x ∈ (saveTry w name s).saved, Outputs args x.1 ∧ w.writable x.1 = true) := by
    intro name s ho
    unfold saveUnwrap saveTry
    split
    · rename_i hwr
      refine ⟨⟨Nat.le_refl _, ?_⟩, ⟨Nat.le_refl _, ?_⟩⟩ <;>
      · intro x hx
        rw [List.mem_singleton.1 hx]
        exact ⟨ho, hwr⟩
    · exact ⟨nothing _, nothing _⟩
  by_cases hi : ∃ bytes, InputIs w args.file bytes
  · obtain ⟨bytes, hi⟩ := hi
    rcases C01_parseWad_total bytes with ⟨wad, hp⟩ | ⟨e, hp⟩
    · rw [run_ok hi hp]
      rcases hs : args.sub with _ | (_ | out | _ | out)
      · exact ⟨Nat.zero_le _, by intro x hx; cases hx⟩
      · exact ⟨Nat.zero_le _, by intro x hx; cases hx⟩
      · exact key _ _ _ fun d => (one out _ (.inl hs)).1
      · exact key _ _ _ fun d => (one demoFile _ (.inr (.inr ⟨hs, rfl⟩))).2
      · exact key _ _ _ fun d => (one out _ (.inr (.inl hs))).1
    · rw [run_err hi hp]
      exact nothing (.err e)
  · unfold run
    rw [openInput_err (by simpa using hi)]
    exact nothing _

/-- **C79** is false: whenever the program reports an error, its status is 0 (success). -/
theorem C79_error_status_zero (e : Effects F) (h : (mainProcess e).error.isSome) : (mainProcess e).exit = .status 0 := by
  revert h
  unfold mainProcess
  rcases e.outcome with _ | _ | _ | _ <;> simp

/-- **C79**, the part that holds: a run which does what was asked reports no error and has status 0; another status is due to a
panic.  Missing: the status shows an error (`C79_error_status_zero`), and there are no panics (`C79_unwritable`). -/
theorem C79_status_partial (e : Effects F) :
    (e.outcome = .ok () → (mainProcess e).error = none ∧ (mainProcess e).exit = .status 0) ∧
    (∀ n, (mainProcess e).exit = .status n → n = 0 ∨ (n = 101 ∧ ∃ p, e.outcome = .panic p)) := by
  unfold mainProcess
  rcases e.outcome with _ | _ | _ | _ <;> simp

/-- **C79** If the file may not be written, `chart` and `route` panic instead of reporting it; `shapeops` reports it. -/
theorem C79_unwritable (pr : Profile) (lib : Lib) (order : List Bytes → List Bytes) (fuel : Nat) (w : World) (file bytes out : Bytes) (wad : BareWAD)
    (h : InputIs w file bytes) (hw : parseWad bytes = .ok wad) (hn : ∀ name, w.writable name = false) :
    (∀ d : Chart F, doChart pr fuel wad = .ok (some d) →
      mainProcess (run pr lib order fuel w ⟨file, some (.chart out)⟩ : Effects F) = ⟨[], [], none, .status 101⟩) ∧
    (∀ d : DemoDoc F, demoDoc lib fuel = .ok d →
      mainProcess (run pr lib order fuel w ⟨file, some .shapeops⟩ : Effects F) = ⟨[], [], some .io, .status 0⟩) := by
  constructor
  · intro d hd
    rw [run_ok (args := ⟨file, some (.chart out)⟩) h hw]
    simp [dispatch, hd, saveIf, saveUnwrap, hn, Effects.ends, mainProcess]
  · intro d hd
    rw [run_ok (args := ⟨file, some .shapeops⟩) h hw]
    simp [dispatch, hd, saveIf, saveTry, hn, Effects.ends, mainProcess, Res.map]

/-- **C78**, **C79** are not about an empty set of runs: a file with some text is reported as not a WAD, with status 0; an empty WAD is
read from a file and from standard input, and `chart` saves nothing, with status 0. -/
theorem C78_example (pr : Profile) (lib : Lib) (order : List Bytes → List Bytes) (fuel : Nat) :
    mainProcess (run pr lib order fuel (exWorld (str "hello, world")) ⟨str "in.wad", some (.chart (str "out.svg"))⟩ : Effects F) =
      ⟨[], [], some .parseError, .status 0⟩ ∧
    mainProcess (run pr lib order fuel (exWorld (str "PWAD" ++ [0, 0, 0, 0, 12, 0, 0, 0])) ⟨str "in.wad", some (.chart (str "out.svg"))⟩ : Effects F) =
      ⟨[], [], none, .status 0⟩ ∧
    mainProcess (run pr lib order fuel (exWorld (str "PWAD" ++ [0, 0, 0, 0, 12, 0, 0, 0])) ⟨str "-", some (.chart (str "out.svg"))⟩ : Effects F) =
      ⟨[], [], none, .status 0⟩ := by
  have hin : ∀ v : Bytes, v ≠ [] → InputIs (exWorld v) (str "in.wad") v := fun v hv => .inr ⟨by decide, rfl, hv⟩
  have hst : ∀ v : Bytes, InputIs (exWorld v) (str "-") v := fun v => .inl ⟨rfl, rfl⟩
  have hbad : parseWad (str "hello, world") = .err .parseError := by decide +kernel
  obtain ⟨wad, hp, hd⟩ : ∃ wad, parseWad (str "PWAD" ++ [0, 0, 0, 0, 12, 0, 0, 0]) = .ok wad ∧ wad.directory = [] := by
    refine ⟨_, rfl, ?_⟩
    decide +kernel
  have hc : (doChart pr fuel wad : Res (Option (Chart F))) = .ok none := by
    apply C72_no_maps
    unfold parsedMaps
    have : wad.iterMaps = [] := by
      rw [List.eq_nil_iff_forall_not_mem]
      intro b hb
      rw [mem_iterMaps, BareWAD.items, hd] at hb
      rw [wadItems_unfold] at hb
      simp [enumFrom, wadNext] at hb
    rw [this]
    rfl
  refine ⟨(C78_bad_input pr lib order fuel _ _).2 _ _ (hin _ (by decide)) hbad, ?_, ?_⟩
  · rw [run_ok (hin _ (by decide)) hp]
    simp [dispatch, hc, saveIf, Effects.ends, mainProcess]
  · rw [run_ok (hst _) hp]
    simp [dispatch, hc, saveIf, Effects.ends, mainProcess]

/-- The drawing `shapeops` saves, in exact arithmetic: the four quarters of a square, each once. -/
theorem C78_demo : (demoDoc listLib 200 : Res (DemoDoc Rat)) = .ok ⟨(-16, -80, 96, 96),
    [⟨[.moveTo 0 (-32), .lineTo 0 0, .lineTo 32 0, .lineTo 32 (-32), .lineTo 0 (-32)], 0, 8, -8⟩,
     ⟨[.moveTo 0 (-64), .lineTo 0 (-32), .lineTo 32 (-32), .lineTo 32 (-64), .lineTo 0 (-64)], 1, 8, -40⟩,
     ⟨[.moveTo 32 (-32), .lineTo 32 0, .lineTo 64 0, .lineTo 64 (-32), .lineTo 32 (-32)], 2, 40, -8⟩,
     ⟨[.moveTo 32 (-64), .lineTo 32 (-32), .lineTo 64 (-32), .lineTo 64 (-64), .lineTo 32 (-64)], 3, 40, -40⟩]⟩ := by
  decide +kernel

end Idc
