import Verif.Model.CmdMain
import Verif.Props.CmdCheck
import Verif.Props.Commands
import Verif.Props.LayerView

/-!
# C107: the exit status of CZICmd
-/

namespace Verif
open Verif.Spec Verif.Czi Verif.Blit Verif.Bitonal Verif.Jxr Verif.Fill Verif.Zstd Verif.Accessor Verif.Viewer Verif.Flt Verif.Commands Verif.CmdLine

/-- **C107 (arguments).** If the arguments are not accepted (`C105_arguments_partial`), whatever the commands do, the process ends with the status 2 and a complaint, and nothing is
written; and only then is the status 2. -/
theorem C107_arguments {α : Type} (range : List Char → Bool) (run : Arguments → CmdLine.Options → Ran α) (a : Arguments) :
    (parseArguments range a = none → mainTool range run a = .ended 2 true []) ∧
      ∀ complaint written, mainTool range run a = .ended 2 complaint written → parseArguments range a = none := by
  constructor
  · intro h
    unfold mainTool
    rw [h]
  · intro complaint written h
    unfold mainTool at h
    cases hp : parseArguments range a with
    | none => rfl
    | some o =>
      rw [hp] at h
      dsimp only at h
      split at h
      · split at h <;> injection h <;> contradiction
      · injection h; contradiction

/-- A composition without a region: status 2. -/
example {α : Type} (run : Arguments → CmdLine.Options → Ran α) :
    mainTool (fun _ => true) run { command := .ChannelComposite, source := "a.czi".toList, output := "b".toList } = .ended 2 true [] :=
  (C107_arguments _ _ _).1 (C105_arguments_missing _ _ (.inr (.inr (.inr (.inl ⟨by unfold Spec.Pictures; decide, rfl⟩)))))

private theorem accepted_command {range : List Char → Bool} {a : Arguments} {o : CmdLine.Options} (h : parseArguments range a = some o) : o.command ≠ .Invalid := by
  obtain ⟨hc, -, -, -, -, -, hn⟩ := (C105_arguments_partial range a o).1 h
  rw [hc]
  exact hn.command

/-- **C107 (success; partial: the status alone does not tell, see the next theorems).** The process ends without a complaint exactly if the arguments were accepted and the command did its
work; the status is then 0, and the files it wrote are there. -/
theorem C107_success_partial {α : Type} (range : List Char → Bool) (run : Arguments → CmdLine.Options → Ran α) (a : Arguments) (status : Int) (files : List α) :
    mainTool range run a = .ended status false files ↔ status = 0 ∧ ∃ o, parseArguments range a = some o ∧ run a o = (files, .ok true) := by
  unfold mainTool
  cases hp : parseArguments range a with
  | none => simp
  | some o =>
    dsimp only
    rw [if_pos (accepted_command hp)]
    obtain ⟨f, r⟩ : ∃ f r, run a o = (f, r) := ⟨_, _, rfl⟩
    obtain ⟨r, hr⟩ := r
    cases r with
    | ok v => cases v <;> simp [execute, hr, eq_comm]
    | throws => simp [execute, hr]
    | aborts => simp [execute, hr]
    | undefined => simp [execute, hr]

/-- **C107 is violated by every command that fails.** If the arguments are accepted and the command then leaves with an exception, or reports a failure, the status is 0 as if all had
gone well: the value of `execute` is not used. Only the complaint tells that the work was not done; the files written before remain. -/
theorem C107_failure_status_violated {α : Type} (range : List Char → Bool) (run : Arguments → CmdLine.Options → Ran α) (a : Arguments) (o : CmdLine.Options)
    (h : parseArguments range a = some o) (hr : (run a o).2 = .throws ∨ (run a o).2 = .ok false) : mainTool range run a = .ended 0 true (run a o).1 := by
  unfold mainTool
  rw [h]
  dsimp only
  rw [if_pos (accepted_command h)]
  unfold execute
  rcases hr with hr | hr <;> rw [hr]

private theorem tile_accepted (range : List Char → Bool) {a : Arguments} {absolute : Bool} {x y w h : Int} (hc : a.command = .SingleChannelTileAccessor) (hs : a.source ≠ [])
    (ho : a.output ≠ []) (hr : RegionText a.rect absolute x y w h) (hp : a.pyramid = []) (hz : a.zoom = []) : ∃ o, parseArguments range a = some o := by
  refine ⟨⟨a.command, a.source, a.output, some ⟨absolute, x, y, w, h⟩, (-1, -1), .fin 1⟩, (C105_arguments_partial _ _ _).2
    ⟨rfl, rfl, rfl, .inr ⟨absolute, x, y, w, h, hr, rfl⟩, .inl ⟨hp, rfl, rfl⟩, .inl ⟨hz, rfl⟩, ?_⟩⟩
  rw [hc]
  refine ⟨Command.noConfusion, fun _ => hs, fun _ => ho, fun _ => by simp, fun h => Command.noConfusion h, fun h => ?_⟩
  exact absurd h (by unfold Scales; decide)

/-- **C107 is violated by a document that cannot be opened.** With a file that is not there, or that is not a document, every command that reads a document ends with the status 0,
whatever it would have done with the document. -/
theorem C107_missing_document_violated {α : Type} (range : List Char → Bool) (files : List Char → Option Stream) (al : Alloc) (command : Arguments → Stream → Doc → Ran α)
    (a : Arguments) (o : CmdLine.Options) (ha : parseArguments range a = some o)
    (hf : files a.source = none ∨ ∃ s e, files a.source = some s ∧ openDoc al s .default = .error e ∧ e ≠ .undefined) :
    mainTool range (fun a _ => withDocument files al a.source (command a)) a = .ended 0 true [] := by
  have hrun : withDocument files al a.source (command a) = ([], .throws) := by
    unfold withDocument
    rcases hf with hf | ⟨s, e, hf, hd, he⟩
    · rw [hf]
    · rw [hf]
      dsimp only
      rw [hd]
      cases e <;> first | rfl | exact absurd rfl he
  have := C107_failure_status_violated range (fun a _ => withDocument files al a.source (command a)) a o ha (.inl (by rw [hrun]))
  rw [this, hrun]

/-- The file is not there, or it is empty. -/
example (c : Codecs) (mem : Memory) (al : Alloc) (plane : Coord) (background : Colour) (files : List Char → Option Stream)
    (hf : files = (fun _ => none) ∨ files = fun _ => some (fun _ _ => [])) :
    mainTool (fun _ => true) (tileRun files id c mem al plane background false none)
      { command := .SingleChannelTileAccessor, source := "a.czi".toList, output := "b".toList, rect := "abs(0,0,5,7)".toList } = .ended 0 true [] := by
  obtain ⟨o, h⟩ := tile_accepted (fun _ => true)
    (a := { command := .SingleChannelTileAccessor, source := "a.czi".toList, output := "b".toList, rect := "abs(0,0,5,7)".toList })
    rfl (by decide) (by decide) ((C105_region_partial _ true 0 0 5 7).1 (by decide)) rfl rfl
  refine C107_missing_document_violated _ files al (fun a s doc => oneFile <| tileCommand id c mem al s doc plane background false none a.rect a.output) _ o h ?_
  rcases hf with rfl | rfl
  · exact .inl rfl
  · exact .inr ⟨_, .notEnough, rfl, rfl, by decide⟩

/-- **C107 (from the writer to the exit status; restrictions as for `C104_tile_command_partial`).** Whatever calls are made to the writer: if the file is then named on the command line
together with the command `SingleChannelTileAccessor`, an output and a region, the process ends with the status 0 and without a complaint, and has written the picture of the region. -/
theorem C107_tile_tool_partial (dup : Bool) (d0 : Disk) (info : WriterInfo) (ops : List WOp) (hi : InfoOk info) (hops : OpsOk ops)
    (hsz : ∀ a ∈ subsOf ops, a.sizeData ≤ 2147483647) (al : Alloc) (hal : ∀ n, al n = true) :
    ∃ disk done, writeDoc dup d0 info ops = some (disk, done) ∧
      ∀ (range : List Char → Bool) (files : List Char → Option Stream) (a : Arguments), a.command = .SingleChannelTileAccessor → files a.source = some disk.stream → a.source ≠ [] →
      a.output ≠ [] → a.pyramid = [] → a.zoom = [] →
      ∀ (c : Codecs) (mem : Memory) (sort : List Item → List Item) (pt : PixelType) (plane : Coord) (background : Colour) (visibility : Bool)
        (pic : AddInfo → Nat → Nat → Nat → UInt8) (x y w h : Int), Lossless c.zstd → SortsBy mKey sort → ViewableType pt →
        (∀ a ∈ subsOf done, SubPlausible a) → PlaneFits plane (subsOf done) →
        (plane .C = none → ∀ a ∈ subsOf done, a.coordinate .C = none) → (∃ a ∈ subsOf done, InChannel plane a) →
        (∀ a ∈ subsOf done, InChannel plane a → a.pixelType = pt) →
        (∀ a ∈ subsOf done, InPlane plane a → Full a → DataShows c a a.logicalWidth.toNat a.logicalHeight.toNat (pic a)) →
        (Coloured background → background.sum ≠ .nan) → RegionMeant (subsOf done) a.rect x y w h → IsInt32 x → IsInt32 y →
        ∃ out, mainTool range (tileRun files sort c mem al plane background visibility none) a = .ended 0 false [(a.output ++ ".PNG".toList, ⟨pt, out⟩)] ∧
          CorrectPicture c (subsOf done) pic pt plane ⟨background, true, visibility⟩ x y w.toNat h.toNat out := by
  obtain ⟨disk, done, doc, h1, h2, h3⟩ := C104_tile_command_partial dup d0 info ops hi hops hsz .default al hal
  refine ⟨disk, done, h1, fun range files a hc hfile hs ho hp hz c mem sort pt plane background visibility pic x y w h q1 q2 q3 q4 q5 q6 q7 q8 q9 q10 q11 q12 q13 => ?_⟩
  obtain ⟨out, e1, e2⟩ := h3 c mem sort pt plane background visibility pic a.rect a.output x y w h q1 q2 q3 q4 q5 q6 q7 q8 q9 q10 q11 q12 q13
  refine ⟨out, ?_, e2⟩
  have hacc : ∃ o, parseArguments range a = some o := by
    rcases q11 with q | ⟨ox, oy, -, q⟩
    · exact tile_accepted range hc hs ho q hp hz
    · exact tile_accepted range hc hs ho q hp hz
  obtain ⟨o, hacc⟩ := hacc
  refine (C107_success_partial _ _ _ _ _).2 ⟨rfl, o, hacc, ?_⟩
  unfold tileRun withDocument
  rw [hfile]
  dsimp only
  rw [h2]
  dsimp only
  rw [e1]
  rfl

/-- The hypotheses are met: a document of two sub-blocks and a picture of 4 × 4 pixels. -/
example (c : Codecs) (hz : Lossless c.zstd) (mem : Memory) : ∃ disk done, writeDoc false Disk.empty exInfo sceneOps = some (disk, done) ∧
    ∃ out, mainTool (fun _ => true) (tileRun (fun n => if n = "a.czi".toList then some disk.stream else none)
        (fun l => l.mergeSort (fun a b => decide (mKey a ≤ mKey b))) c mem (fun _ => true) viewPlane ⟨.num 0, .num 0, .num 0⟩ false none)
        { command := .SingleChannelTileAccessor, source := "a.czi".toList, output := "out".toList, rect := "rel(0,0,4,4)".toList } =
      .ended 0 false [("out.PNG".toList, ⟨.Gray8, out⟩)] := by
  obtain ⟨disk, done, h1, h3⟩ := C107_tile_tool_partial false Disk.empty exInfo sceneOps exInfo_ok sceneOps_ok (by
    intro a ha
    simp only [subsOf, sceneOps, List.filterMap_cons, List.filterMap_nil, List.mem_cons, List.not_mem_nil, or_false] at ha
    rcases ha with rfl | rfl <;> (show 4 ≤ 2147483647; omega)) (fun _ => true) (fun _ => rfl)
  have hs := scenes_written h1
  rw [hs] at h3
  have hall : ∀ {P : AddInfo → Prop}, P (sceneSub 0 7 0 0 5) → P (sceneSub 1 3 10 10 6) → ∀ a ∈ [sceneSub 0 7 0 0 5, sceneSub 1 3 10 10 6], P a := by
    intro P p q a ha
    simp only [List.mem_cons, List.not_mem_nil, or_false] at ha
    rcases ha with rfl | rfl
    · exact p
    · exact q
  have dep : ∀ scene m x y v, DataShows c (sceneSub scene m x y v) 2 2 (fun _ _ _ => v) := by
    intro scene m x y v
    refine .raw rfl (by show 2 * (2 * 1) ≤ 4; omega) (fun x y j hx hy hj => ?_)
    have hj : j = 0 := by change j < 1 at hj; omega
    subst hj
    show [v, v, v, v][y * (2 * 1) + x * 1 + 0]? = some v
    rcases (show x = 0 ∨ x = 1 by omega) with rfl | rfl <;> rcases (show y = 0 ∨ y = 1 by omega) with rfl | rfl <;> rfl
  have hpic : ∀ a ∈ [sceneSub 0 7 0 0 5, sceneSub 1 3 10 10 6], DataShows c a a.logicalWidth.toNat a.logicalHeight.toNat (fun _ _ _ => if a.mIndex = some 7 then 5 else 6) :=
    hall (dep 0 7 0 0 5) (dep 1 3 10 10 6)
  have ho : IsOrigin [sceneSub 0 7 0 0 5, sceneSub 1 3 10 10 6] 0 0 := by
    refine ⟨⟨⟨_, List.mem_cons_self, ⟨rfl, rfl⟩, rfl⟩, ?_⟩, ⟨⟨_, List.mem_cons_self, ⟨rfl, rfl⟩, rfl⟩, ?_⟩⟩ <;>
    · intro a ha _
      simp only [List.mem_cons, List.not_mem_nil, or_false] at ha
      rcases ha with rfl | rfl <;> decide
  obtain ⟨out, e1, e2⟩ := h3 (fun _ => true) (fun n => if n = "a.czi".toList then some disk.stream else none)
    { command := .SingleChannelTileAccessor, source := "a.czi".toList, output := "out".toList, rect := "rel(0,0,4,4)".toList } rfl (if_pos rfl) (by decide) (by decide) rfl rfl c mem _ .Gray8 viewPlane ⟨.num 0, .num 0, .num 0⟩ false
    (fun a _ _ _ => if a.mIndex = some 7 then 5 else 6) 0 0 4 4 hz mergeSort_sorts (.inl rfl)
    (hall ⟨(by show (0 : Int) ≤ 2; omega), (by show (0 : Int) ≤ 2; omega), .C, rfl⟩ ⟨(by show (0 : Int) ≤ 2; omega), (by show (0 : Int) ≤ 2; omega), .C, rfl⟩)
    ⟨rfl, (by
      intro d hd hn a ha b hb u v hu hv
      have key : ∀ a ∈ [sceneSub 0 7 0 0 5, sceneSub 1 3 10 10 6], a.coordinate d = viewPlane d := by
        apply hall <;> (unfold sceneSub viewPlane Coord.set; simp only; rw [if_neg hd])
      rw [key a ha, hn] at hu
      cases hu), (by
      intro d v hv
      have : d = .C ∧ v = 0 := by
        cases d <;> cases hv
        exact ⟨rfl, rfl⟩
      obtain ⟨rfl, rfl⟩ := this
      exact ⟨sceneSub 0 7 0 0 5, by simp, sceneSub 0 7 0 0 5, by simp, 0, 0, rfl, rfl, by omega, by omega⟩)⟩
    (fun h => by cases h) ⟨sceneSub 0 7 0 0 5, by simp, rfl⟩ (hall (fun _ => rfl) (fun _ => rfl)) (fun a ha _ _ => hpic a ha)
    (fun _ => (by decide +kernel)) (.inr ⟨0, 0, ho, (C105_region_partial _ _ _ _ _ _).1 (by decide)⟩) ⟨by decide, by decide⟩ ⟨by decide, by decide⟩
  exact ⟨disk, done, h1, out, e1⟩

private theorem layer_accepted (range : List Char → Bool) {subs : List AddInfo} {a : Arguments} {factor n : Nat} {x y w h : Int}
    (hc : a.command = .SingleChannelPyramidTileAccessor) (hs : a.source ≠ []) (ho : a.output ≠ []) (hz : a.zoom = []) (ht : LayerText a.pyramid factor n) (h0 : 0 < factor)
    (hr : RegionMeant subs a.rect x y w h) : ∃ o, parseArguments range a = some o := by
  have hreg : ∃ absolute x y w h, RegionText a.rect absolute x y w h := by
    rcases hr with q | ⟨ox, oy, -, q⟩
    · exact ⟨_, _, _, _, _, q⟩
    · exact ⟨_, _, _, _, _, q⟩
  obtain ⟨absolute, x, y, w, h, hreg⟩ := hreg
  refine ⟨⟨a.command, a.source, a.output, some ⟨absolute, x, y, w, h⟩, (factor, n), .fin 1⟩, (C105_arguments_partial _ _ _).2
    ⟨rfl, rfl, rfl, .inr ⟨absolute, x, y, w, h, hreg, rfl⟩, .inr ht, .inl ⟨hz, rfl⟩, ?_⟩⟩
  rw [hc]
  refine ⟨Command.noConfusion, fun _ => hs, fun _ => ho, fun _ => by simp, fun _ => ⟨by show (0 : Int) < factor; omega, by show (0 : Int) ≤ n; omega⟩, fun h => ?_⟩
  exact absurd h (by unfold Scales; decide)

/-- **C107 (layers, from the writer to the exit status; restrictions as for `C104_layer_command_partial`).** If the region holds something of the layer, the process ends with the status 0
and without a complaint, and has written the picture of the layer. -/
theorem C107_layer_tool_partial (dup : Bool) (d0 : Disk) (info : WriterInfo) (ops : List WOp) (hi : InfoOk info) (hops : OpsOk ops)
    (hsz : ∀ a ∈ subsOf ops, a.sizeData ≤ 2147483647) (al : Alloc) (hal : ∀ n, al n = true) :
    ∃ disk done, writeDoc dup d0 info ops = some (disk, done) ∧
      ∀ (range : List Char → Bool) (files : List Char → Option Stream) (a : Arguments), a.command = .SingleChannelPyramidTileAccessor → files a.source = some disk.stream →
      a.source ≠ [] → a.output ≠ [] → a.zoom = [] →
      ∀ (c : Codecs) (mem : Memory) (sort : List Item → List Item) (pt : PixelType) (plane : Coord) (background : Colour) (scenes : Option (Int → Bool))
        (pic : AddInfo → Nat → Nat → Nat → UInt8) (factor n : Nat) (roi : IntRect), Lossless c.zstd → SortsBy mKey sort → ViewableType pt →
        (∀ a ∈ subsOf done, SubPlausible a) → PlaneFits plane (subsOf done) →
        (plane .C = none → ∀ a ∈ subsOf done, a.coordinate .C = none) → (∃ a ∈ subsOf done, InChannel plane a) →
        (∀ a ∈ subsOf done, InChannel plane a → a.pixelType = pt) → LayerSubs c (subsOf done) plane pt factor pic → (Coloured background → background.sum ≠ .nan) →
        LayerText a.pyramid factor n → 0 < factor → factor ≤ 255 → n ≤ 255 → RegionMeant (subsOf done) a.rect roi.x roi.y roi.w roi.h → IsInt32 roi.x → IsInt32 roi.y →
        LayerRequested factor n roi → LayerThere (subsOf done) plane scenes factor n roi →
        ∃ out, mainTool range (layerRun files sort c mem al plane background scenes) a = .ended 0 false [(a.output ++ ".PNG".toList, ⟨pt, out⟩)] ∧
          CorrectLayer c (subsOf done) pic pt plane background scenes factor n roi out := by
  obtain ⟨disk, done, doc, h1, h2, h3⟩ := C104_layer_command_partial dup d0 info ops hi hops hsz .default al hal
  refine ⟨disk, done, h1, fun range files a hc hfile hs ho hz c mem sort pt plane background scenes pic factor n roi q1 q2 q3 q4 q5 q6 q7 q8 q9 q10 q11 q12 q13 q14 q15 q16 q17 q18 q19 => ?_⟩
  obtain ⟨out, e1, e2⟩ := h3 c mem sort pt plane background scenes pic a.pyramid a.rect a.output factor n roi q1 q2 q3 q4 q5 q6 q7 q8 q9 q10 q11 q12 q13 q14 q15 q16 q17 q18 q19
  obtain ⟨o, hacc⟩ := layer_accepted range hc hs ho hz q11 q12 q15
  refine ⟨out, (C107_success_partial _ _ _ _ _).2 ⟨rfl, o, hacc, ?_⟩, e2⟩
  unfold layerRun withDocument
  rw [hfile]
  dsimp only
  rw [h2]
  dsimp only
  rw [e1]
  rfl

/-- **C107 is violated by layers that are missing.** Whatever calls are made to the writer: if a picture is asked for of a layer of which the region holds nothing (conditions as for
`C104_layer_command_missing_violated`), nothing is written, and the status is 0. -/
theorem C107_layer_missing_violated (dup : Bool) (d0 : Disk) (info : WriterInfo) (ops : List WOp) (hi : InfoOk info) (hops : OpsOk ops)
    (hsz : ∀ a ∈ subsOf ops, a.sizeData ≤ 2147483647) (al : Alloc) (hal : ∀ n, al n = true) :
    ∃ disk done, writeDoc dup d0 info ops = some (disk, done) ∧
      ∀ (range : List Char → Bool) (files : List Char → Option Stream) (a : Arguments), a.command = .SingleChannelPyramidTileAccessor → files a.source = some disk.stream →
      a.source ≠ [] → a.output ≠ [] → a.zoom = [] →
      ∀ (c : Codecs) (mem : Memory) (sort : List Item → List Item) (pt : PixelType) (plane : Coord) (background : Colour) (scenes : Option (Int → Bool))
        (pic : AddInfo → Nat → Nat → Nat → UInt8) (factor n : Nat) (roi : IntRect), Lossless c.zstd → SortsBy mKey sort → ViewableType pt →
        (∀ a ∈ subsOf done, SubPlausible a) → PlaneFits plane (subsOf done) →
        (plane .C = none → ∀ a ∈ subsOf done, a.coordinate .C = none) → (∃ a ∈ subsOf done, InChannel plane a) →
        (∀ a ∈ subsOf done, InChannel plane a → a.pixelType = pt) → LayerSubs c (subsOf done) plane pt factor pic → (Coloured background → background.sum ≠ .nan) →
        LayerText a.pyramid factor n → 0 < factor → factor ≤ 255 → n ≤ 255 → RegionMeant (subsOf done) a.rect roi.x roi.y roi.w roi.h → IsInt32 roi.x → IsInt32 roi.y →
        LayerRequested factor n roi → LayerMissing (subsOf done) plane scenes factor n roi →
        mainTool range (layerRun files sort c mem al plane background scenes) a = .ended 0 true [] := by
  obtain ⟨disk, done, doc, h1, h2, h3⟩ := C104_layer_command_missing_violated dup d0 info ops hi hops hsz .default al hal
  refine ⟨disk, done, h1, fun range files a hc hfile hs ho hz c mem sort pt plane background scenes pic factor n roi q1 q2 q3 q4 q5 q6 q7 q8 q9 q10 q11 q12 q13 q14 q15 q16 q17 q18 q19 => ?_⟩
  have e1 := h3 c mem sort pt plane background scenes pic a.pyramid a.rect a.output factor n roi q1 q2 q3 q4 q5 q6 q7 q8 q9 q10 q11 q12 q13 q14 q15 q16 q17 q18 q19
  obtain ⟨o, hacc⟩ := layer_accepted range hc hs ho hz q11 q12 q15
  have hrun : layerRun files sort c mem al plane background scenes a o = ([], .throws) := by
    unfold layerRun withDocument
    rw [hfile]
    dsimp only
    rw [h2]
    dsimp only
    rw [e1]
    rfl
  rw [C107_failure_status_violated _ _ _ _ hacc (.inl (by rw [hrun])), hrun]

/-- The hypotheses are met: pictures of the layers 1 and 2 of a document that has the layers 0 and 1. -/
example (c : Codecs) (hz : Lossless c.zstd) (mem : Memory) : ∃ disk done, writeDoc false Disk.empty exInfo layerOps = some (disk, done) ∧
    mainTool (fun _ => true) (layerRun (fun n => if n = "a.czi".toList then some disk.stream else none)
        (fun l => l.mergeSort (fun a b => decide (mKey a ≤ mKey b))) c mem (fun _ => true) viewPlane ⟨.num 0, .num 0, .num 0⟩ none)
        { command := .SingleChannelPyramidTileAccessor, source := "a.czi".toList, output := "out".toList, rect := "rel(0,0,4,4)".toList, pyramid := "2,2".toList } =
      .ended 0 true [] ∧
    ∃ out, mainTool (fun _ => true) (layerRun (fun n => if n = "a.czi".toList then some disk.stream else none)
        (fun l => l.mergeSort (fun a b => decide (mKey a ≤ mKey b))) c mem (fun _ => true) viewPlane ⟨.num 0, .num 0, .num 0⟩ none)
        { command := .SingleChannelPyramidTileAccessor, source := "a.czi".toList, output := "out".toList, rect := "rel(0,0,4,4)".toList, pyramid := "2,1".toList } =
      .ended 0 false [("out.PNG".toList, ⟨.Gray8, out⟩)] := by
  have hsz : ∀ a ∈ subsOf layerOps, a.sizeData ≤ 2147483647 := by
    intro a ha
    simp only [subsOf, layerOps, List.filterMap_cons, List.filterMap_nil, List.mem_cons, List.not_mem_nil, or_false] at ha
    rcases ha with rfl | rfl <;> (show 4 ≤ 2147483647; omega)
  obtain ⟨disk, done, h1, h3⟩ := C107_layer_missing_violated false Disk.empty exInfo layerOps exInfo_ok layerOps_ok hsz (fun _ => true) (fun _ => rfl)
  obtain ⟨disk', done', k1, k3⟩ := C107_layer_tool_partial false Disk.empty exInfo layerOps exInfo_ok layerOps_ok hsz (fun _ => true) (fun _ => rfl)
  obtain ⟨rfl, rfl⟩ : disk = disk' ∧ done = done' := by rw [h1] at k1; simpa using k1
  rw [layers_written h1] at h3 k3
  have hall : ∀ {P : AddInfo → Prop}, P (viewSub 7 0 0 5) → P (halfSub 3 0 0 6) → ∀ a ∈ [viewSub 7 0 0 5, halfSub 3 0 0 6], P a := by
    intro P p q a ha
    simp only [List.mem_cons, List.not_mem_nil, or_false] at ha
    rcases ha with rfl | rfl
    · exact p
    · exact q
  have dep : DataShows c (halfSub 3 0 0 6) 2 2 (fun _ _ _ => 6) := by
    refine .raw rfl (by show 2 * (2 * 1) ≤ 4; omega) (fun x y j hx hy hj => ?_)
    have hj : j = 0 := by change j < 1 at hj; omega
    subst hj
    show [(6 : UInt8), 6, 6, 6][y * (2 * 1) + x * 1 + 0]? = some 6
    rcases (show x = 0 ∨ x = 1 by omega) with rfl | rfl <;> rcases (show y = 0 ∨ y = 1 by omega) with rfl | rfl <;> rfl
  have hsubs : LayerSubs c [viewSub 7 0 0 5, halfSub 3 0 0 6] viewPlane .Gray8 2 (fun a _ _ _ => if a.mIndex = some 7 then 5 else 6) :=
    hall (fun _ => ⟨rfl, viewSub_depicts c 7 0 0 5, (by unfold UsualSub viewSub; decide), 0, (view_layer 0).2 rfl, by decide⟩)
      (fun _ => ⟨rfl, dep, (by unfold UsualSub halfSub viewSub; decide), 1, (half_layer 1).2 rfl, by decide⟩)
  have ho : IsOrigin [viewSub 7 0 0 5, halfSub 3 0 0 6] 0 0 := by
    refine ⟨⟨⟨_, List.mem_cons_self, ⟨rfl, rfl⟩, rfl⟩, ?_⟩, ⟨⟨_, List.mem_cons_self, ⟨rfl, rfl⟩, rfl⟩, ?_⟩⟩ <;>
    · intro a ha _
      simp only [List.mem_cons, List.not_mem_nil, or_false] at ha
      rcases ha with rfl | rfl <;> decide
  have hplaus : ∀ a ∈ [viewSub 7 0 0 5, halfSub 3 0 0 6], SubPlausible a :=
    hall (viewSub_plausible 7 0 0 5) ⟨(by show (0 : Int) ≤ 4; omega), (by show (0 : Int) ≤ 4; omega), .C, rfl⟩
  have hin : ∀ a ∈ [viewSub 7 0 0 5, halfSub 3 0 0 6], InPlane viewPlane a := by
    apply hall <;> (intro d v hv; cases d <;> cases hv; rfl)
  have hfit : PlaneFits viewPlane [viewSub 7 0 0 5, halfSub 3 0 0 6] := by
    refine ⟨rfl, (by
      intro d hd hn a ha b hb u v hu hv
      have key : ∀ a ∈ [viewSub 7 0 0 5, halfSub 3 0 0 6], a.coordinate d = viewPlane d := hall rfl rfl
      rw [key a ha, hn] at hu
      cases hu), (by
      intro d v hv
      have : d = .C ∧ v = 0 := by
        cases d <;> cases hv
        exact ⟨rfl, rfl⟩
      obtain ⟨rfl, rfl⟩ := this
      exact ⟨viewSub 7 0 0 5, by simp, viewSub 7 0 0 5, by simp, 0, 0, rfl, rfl, by omega, by omega⟩)⟩
  have hmeant : RegionMeant [viewSub 7 0 0 5, halfSub 3 0 0 6] "rel(0,0,4,4)".toList 0 0 4 4 := .inr ⟨0, 0, ho, (C105_region_partial _ _ _ _ _ _).1 (by decide)⟩
  have hel : Eligible [viewSub 7 0 0 5, halfSub 3 0 0 6] viewPlane (wholePixels (2 ^ 1) ⟨0, 0, 4, 4⟩) none (halfSub 3 0 0 6) :=
    ⟨by simp, hin _ (by simp), ⟨0, 0, (by unfold wholePixels IntRect.Has; decide), (by unfold CoversPoint halfSub viewSub; decide)⟩, fun _ h => by cases h⟩
  have hel2 : Eligible [viewSub 7 0 0 5, halfSub 3 0 0 6] viewPlane (wholePixels (2 ^ 2) ⟨0, 0, 4, 4⟩) none (halfSub 3 0 0 6) :=
    ⟨by simp, hin _ (by simp), ⟨0, 0, (by unfold wholePixels IntRect.Has; decide), (by unfold CoversPoint halfSub viewSub; decide)⟩, fun _ h => by cases h⟩
  obtain ⟨out, e1, -⟩ := k3 (fun _ => true) (fun n => if n = "a.czi".toList then some disk.stream else none)
    { command := .SingleChannelPyramidTileAccessor, source := "a.czi".toList, output := "out".toList, rect := "rel(0,0,4,4)".toList, pyramid := "2,1".toList } rfl (if_pos rfl)
    (by decide) (by decide) rfl c mem _ .Gray8 viewPlane ⟨.num 0, .num 0, .num 0⟩ none
    (fun a _ _ _ => if a.mIndex = some 7 then 5 else 6) 2 1 ⟨0, 0, 4, 4⟩ hz mergeSort_sorts (.inl rfl)
    hplaus hfit (fun h => by cases h) ⟨viewSub 7 0 0 5, by simp, rfl⟩ (hall (fun _ => rfl) (fun _ => rfl)) hsubs
    (fun _ => (by decide +kernel)) ((C105_pyramid _ _ _).1 (by decide)) (by omega) (by omega) (by omega) hmeant ⟨by decide, by decide⟩ ⟨by decide, by decide⟩
    ⟨by decide, by decide, by decide⟩ (.inl ⟨_, hel, (half_layer 1).2 rfl⟩)
  exact ⟨disk, done, h1, h3 _ _
    { command := .SingleChannelPyramidTileAccessor, source := "a.czi".toList, output := "out".toList, rect := "rel(0,0,4,4)".toList, pyramid := "2,2".toList } rfl (if_pos rfl)
    (by decide) (by decide) rfl c mem _ .Gray8 viewPlane ⟨.num 0, .num 0, .num 0⟩ none
    (fun a _ _ _ => if a.mIndex = some 7 then 5 else 6) 2 2 ⟨0, 0, 4, 4⟩ hz mergeSort_sorts (.inl rfl)
    hplaus hfit (fun h => by cases h) ⟨viewSub 7 0 0 5, by simp, rfl⟩ (hall (fun _ => rfl) (fun _ => rfl)) hsubs
    (fun _ => (by decide +kernel)) ((C105_pyramid _ _ _).1 (by decide)) (by omega) (by omega) (by omega) hmeant ⟨by decide, by decide⟩ ⟨by decide, by decide⟩
    ⟨by decide, by decide, by decide⟩ ⟨⟨_, hel2⟩, fun a ha => hall (P := fun a => ¬ SubOnLayer 2 2 a)
      (fun h => by have := (view_layer 2).1 h; omega) (fun h => by have := (half_layer 2).1 h; omega) a ha.1⟩, out, e1⟩

/-- **C107 is violated by a scan of a plane without a region.** With any document that can be opened (and a corner of layer 0 that the mode, which nothing has set, may refer to), the process
ends with the status 0 and even without a complaint, and has written no file. -/
theorem C107_scan_region_violated (range : List Char → Bool) (files : List Char → Option Stream) (al : Alloc) (mode : Bool) (get : Stream → Doc → IntRect → Outcome Bitmap)
    (tileW tileH : Nat) (source output : List Char) (s : Stream) (doc : Doc) (hs : source ≠ []) (ho : output ≠ []) (hf : files source = some s) (hd : openDoc al s .default = .ok doc)
    (hm : mode = false → IsInt32 (docStats doc).bbox0.x ∧ IsInt32 (docStats doc).bbox0.y) (hw : 0 < tileW) (hw' : tileW < 2 ^ 31) (hh : 0 < tileH) (hh' : tileH < 2 ^ 31) :
    mainTool range (scanRun files al mode get tileW tileH) { command := .PlaneScan, source := source, output := output } = .ended 0 false [] := by
  obtain ⟨o, h1, h2⟩ := C105_scan_region_violated range source output hs ho
  have hr : o.rect = none := by
    obtain ⟨-, -, -, h, -⟩ := (C105_arguments_partial _ _ _).1 h1
    rcases h with ⟨-, h⟩ | ⟨_, _, _, _, _, h, -⟩
    · exact h
    · exact absurd ((C105_region_partial _ _ _ _ _ _).2 h) (by rw [show tryParseRect [] = none by decide]; simp)
  have hroi : ∃ roi, scanRegion mode o doc = some roi := by
    unfold scanRegion roiFromOptions addInt
    rw [hr]
    cases mode
    · obtain ⟨hx, hy⟩ := hm rfl
      unfold IsInt32 at hx hy
      simp only [Option.getD_none, Bool.false_eq_true, if_false, Int.zero_add]
      rw [if_pos (by omega), if_pos (by omega)]
      exact ⟨_, rfl⟩
    · exact ⟨_, rfl⟩
  obtain ⟨roi, hroi⟩ := hroi
  refine (C107_success_partial _ _ _ _ _).2 ⟨rfl, o, h1, ?_⟩
  unfold scanRun withDocument
  rw [hf]
  dsimp only
  rw [hd]
  dsimp only
  rw [hroi]
  dsimp only
  rw [h2 mode doc roi hroi _ _ _ _ hw hw' hh hh']

/-- The hypotheses are met: a document of two sub-blocks, tiles of 512 × 512 pixels. -/
example (get : Stream → Doc → IntRect → Outcome Bitmap) : ∃ disk done, writeDoc false Disk.empty exInfo sceneOps = some (disk, done) ∧
    mainTool (fun _ => true) (scanRun (fun n => if n = "a.czi".toList then some disk.stream else none) (fun _ => true) true get 512 512)
      { command := .PlaneScan, source := "a.czi".toList, output := "out".toList } = .ended 0 false [] := by
  obtain ⟨disk, done, doc, h1, h2, -⟩ := C104_tile_command_partial false Disk.empty exInfo sceneOps exInfo_ok sceneOps_ok (by
    intro a ha
    simp only [subsOf, sceneOps, List.filterMap_cons, List.filterMap_nil, List.mem_cons, List.not_mem_nil, or_false] at ha
    rcases ha with rfl | rfl <;> (show 4 ≤ 2147483647; omega)) .default (fun _ => true) (fun _ => rfl)
  exact ⟨disk, done, h1, C107_scan_region_violated _ _ _ true get 512 512 _ _ disk.stream doc (by decide) (by decide) (if_pos rfl) h2 (fun h => by cases h) (by decide) (by decide)
    (by decide) (by decide)⟩

end Verif
