import Verif.Call.Layer
import Verif.Files.Props

/-! The accelerator that the stages get is the one that is written. -/

namespace Verif.Call

open Files (Doc AccR MemR PortR Level LevelOf)
open Latency (Operand)
open Ports (MemD PortD)
open Whole (AccD)

theorem mapO_of {α β : Type} {f : α → Option β} {l : List α} {ys : List β} (h : List.Forall₂ (fun a b => f a = some b) l ys) : mapO f l = some ys := by
  induction h with
  | nil => rfl
  | cons h1 _ ih =>
    rw [mapO, h1]
    simp only
    rw [ih]

theorem mapO_map {α β : Type} {f : α → Option β} (g : β → α) (h : ∀ b, f (g b) = some b) (l : List β) : mapO f (l.map g) = some l := by
  refine mapO_of ?_
  rw [List.forall₂_map_left_iff]
  exact List.forall₂_same.2 fun b _ => h b

theorem parse_movement (o : Operand) (d : Ports.Dir) : Files.parseAlloc (Files.movement (opName o) d) = .ok (opName o, d) := by
  cases o <;> cases d <;> decide +kernel

/-- The text form of a port. -/
def portText (q : PortD Operand) : PortD String := ⟨q.name, q.type, q.bwMin, q.bwMax, q.alloc.map fun a => (opName a.1, a.2)⟩

theorem port_parsed {p : PortR} {q : PortD Operand} (h : PortSays p q) : Files.portD p = .ok (portText q) := by
  have : Files.mapE Files.parseAlloc p.alloc = .ok (q.alloc.map fun a => (opName a.1, a.2)) := by
    rw [Files.mapE_iff, h.alloc, List.forall₂_map_left_iff, List.forall₂_map_right_iff]
    exact List.forall₂_same.2 fun a _ => parse_movement a.1 a.2
  unfold Files.portD
  rw [this]
  simp only
  rw [← h.name, ← h.type, ← h.bwMin, ← h.bwMax]
  rfl

theorem portOf_text (q : PortD Operand) : portOf (portText q) = some q := by
  unfold portOf portText
  simp only
  rw [mapO_map (fun a : Operand × Ports.Dir => (opName a.1, a.2)) (fun b => by rw [opOf_opName]; rfl)]
  rfl

theorem mem_parsed {cacti : String → String → Int → Int → Except PyErr (ℚ × ℚ × ℚ)} {e : String × MemR} {m : MemD Operand String} (h : MemSays cacti e.1 e.2 m)
    {l : Level} (hl : LevelOf cacti e l) : memOf e.2 l.costs = .ok m := by
  have hp : Files.mapE Files.portD e.2.ports = .ok (m.ports.map portText) := by
    rw [Files.mapE_iff, List.forall₂_map_right_iff]
    exact Files.forall2_imp (fun _ _ => port_parsed) h.ports
  obtain ⟨-, -, -, -, -, hg, hx, -⟩ := hl
  have hcosts : l.costs = (m.rCost, m.wCost, m.area) := by
    cases ha : e.2.auto with
    | false =>
      obtain ⟨h1, h2, h3⟩ := h.given ha
      rw [hg ha, h1, h2, h3]
    | true =>
      obtain ⟨p, c, hr, hc, h1, h2, h3⟩ := h.extracted ha
      obtain ⟨p', c', hr', hc', h4⟩ := hx ha
      have : p = p' := by
        have e1 := (Files.readPort_iff _ _).2 hr
        have e2 := (Files.readPort_iff _ _).2 hr'
        rw [e1] at e2
        exact Option.some.inj e2
      rw [← this, hc] at hc'
      cases hc'
      rw [h4, h1, h2, h3]
  unfold memOf Files.memD
  rw [hp]
  simp only
  rw [h.operands, mapO_map opName opOf_opName, mapO_map portText portOf_text, hcosts]
  simp only
  rw [← h.size, ← h.served, ← h.auto]

theorem mems_parsed {cacti : String → String → Int → Int → Except PyErr (ℚ × ℚ × ℚ)} {es : List (String × MemR)} {ms : List (MemD Operand String)}
    (h : List.Forall₂ (fun e m => MemSays cacti e.1 e.2 m) es ms) : ∀ {ls : List Level}, List.Forall₂ (LevelOf cacti) es ls → memsOf es ls = .ok ms := by
  induction h with
  | nil =>
    intro ls hl
    cases hl
    rfl
  | cons h1 _ ih =>
    intro ls hl
    cases hl with
    | cons k1 k2 =>
      rw [memsOf, mem_parsed h1 k1]
      simp only
      rw [ih k2]

/-- An accelerator file that describes an accelerator yields it. -/
theorem accelerator_written {cacti : String → String → Int → Int → Except PyErr (ℚ × ℚ × ℚ)} {d : Doc} {A : AccD String} (h : AccSays cacti d A)
    (F : Net.FileOk A) : accelerator cacti d = .ok A := by
  obtain ⟨a, hr, hc, himc, hen, har, hsz, hms⟩ := h.read
  have hex : ∃ acc, Files.parseAcc cacti (fun _ => .error .notImplemented) d = .ok acc := by
    rw [Files.built_iff_partial]
    refine ⟨h.accepted, a, hr, hc, fun _ => ⟨by rw [hen]; simp, har⟩, fun hi => absurd (himc.symm.trans hi) (by decide), fun e he => ?_⟩
    obtain ⟨m, hm, hs⟩ := forall₂_index hms he
    have hmo := F.acc.mems m hm
    constructor
    · intro ha
      obtain ⟨p, c, h1, h2, -⟩ := hs.extracted ha
      exact ⟨p, h1, c, h2⟩
    · intro p hp s hsp
      obtain ⟨q, hq, hpq⟩ := forall₂_index hs.ports hp
      rw [hpq.alloc] at hsp
      obtain ⟨x, hx, rfl⟩ := List.mem_map.1 hsp
      refine ⟨opName x.1, ?_, Files.dirName x.2, ?_, rfl⟩
      · rw [hs.operands]
        exact List.mem_map.2 ⟨x.1, hmo.only q hq x hx, rfl⟩
      · cases x.2 <;> decide +kernel
  obtain ⟨acc, hacc⟩ := hex
  unfold accelerator
  rw [hacc]
  simp only
  rw [hr]
  obtain ⟨ha, a', hr', -, hb⟩ := (Files.parseAcc_iff cacti _ d acc).1 hacc
  rw [hr] at hr'
  cases hr'
  obtain ⟨a', hr', hok⟩ := Files.acc_reads d ha
  rw [hr] at hr'
  cases hr'
  obtain ⟨area, harea⟩ := Option.ne_none_iff_exists'.1 har
  obtain ⟨fl, hfl⟩ := Files.flows_total hok
  have hlen := Files.check_lengths hc
  unfold Files.buildAcc Files.unitOf at hb
  rw [himc, hen, harea, hfl, Files.dimSizes_total hok.2.1 hlen] at hb
  simp only [Bool.false_eq_true, if_false] at hb
  split at hb
  · cases hb
  · rename_i hh ls hbm
    cases hb
    obtain ⟨hlv, -, -⟩ := Files.buildMems_levels cacti _ _ _ _ hok.1 hbm
    simp only
    rw [mems_parsed hms hlv]
    simp only
    have hnd : ((a.arr.dims.zip a.arr.sizes).map Prod.fst).Nodup := by
      rw [← hsz, List.map_map]
      exact F.acc.dims
    rw [Files.foldl_written _ hnd, ← hsz, List.map_map]
    congr 2
    conv_rhs => rw [← List.map_id A.sizes]
    exact List.map_congr_left fun e _ => by simp

end Verif.Call
