import Mathlib.Data.Fintype.Basic

/-!
# Order of file accesses in the file-based mesh builders

`create_initial_mesh_convex` (meshes.py:22-113), `get_mesh_hierarchy` (124-229), `get_mesh_hierarchy_nonconvex` (232-321),
`get_mesh_hierarchy_fitted_disc` (324-431) and `get_mesh_data_all_around` (766-866) all proceed like this, with `proc`
the rank of the process:

    if proc == 0: … gmsh.write("mesh.msh")
    if proc == 0: msh = meshio.read("mesh.msh"); meshio.write("mesh.xdmf", …); meshio.write("mt.xdmf", …)
    with XDMFFile(MPI.COMM_WORLD, "mesh.xdmf", "r") as xdmf: xdmf.read_mesh(…); xdmf.read_meshtags(…)
    with XDMFFile(MPI.COMM_WORLD, "mt.xdmf", "r") as xdmf: xdmf.read_meshtags(…)

`get_mesh_convex` (116-121) calls the first of them `n_ref` times.  Writing a file takes time: in between the file is
incomplete.  Reading is one step.  Everything else the processes do is left out.
-/

namespace Dxss.Files

inductive File
  | msh | mesh | tags
  deriving DecidableEq

/-- Content of a file; `complete j`: as written by call number `j`. -/
inductive Content
  | missing
  | partialContent
  | complete (call : ℕ)
  deriving DecidableEq

inductive Instr
  | beginWrite (f : File)
  | endWrite (f : File)
  | enter            -- a process reaches the collective opening of a file
  | leave            -- … and returns from it
  | read (f : File)
  deriving DecidableEq

/-- The statements of one call, in order.  Rank 0 executes all of them, the others start at statement 7. -/
def instr : ℕ → Instr
  | 0 => .beginWrite .msh
  | 1 => .endWrite .msh
  | 2 => .read .msh
  | 3 => .beginWrite .mesh
  | 4 => .endWrite .mesh
  | 5 => .beginWrite .tags
  | 6 => .endWrite .tags
  | 7 => .enter
  | 8 => .leave
  | 9 => .read .mesh
  | 10 => .enter
  | 11 => .leave
  | _ => .read .tags

/-- The next statement of a process: call number and statement number. -/
structure Pos where
  call : ℕ
  stmt : ℕ
  deriving DecidableEq

def firstStmt (rank : ℕ) : ℕ := if rank = 0 then 0 else 7

def Pos.next (rank : ℕ) (p : Pos) : Pos :=
  if p.stmt = 12 then ⟨p.call + 1, firstStmt rank⟩ else ⟨p.call, p.stmt + 1⟩

/-- `p` is at or behind `q` in the order of the program. -/
def Pos.atLeast (p q : Pos) : Prop := q.call < p.call ∨ q.call = p.call ∧ q.stmt ≤ p.stmt

instance (p q : Pos) : Decidable (p.atLeast q) := by unfold Pos.atLeast; infer_instance

/-- A read that did not find the file as written in the same call. -/
structure Fault where
  rank : ℕ
  call : ℕ
  file : File
  found : Content
  deriving DecidableEq

structure St where
  pos : ℕ → Pos
  files : File → Content
  faults : List Fault

def init : St where
  pos r := ⟨0, firstStmt r⟩
  files _ := .missing
  faults := []

def St.move (s : St) (rank : ℕ) : St :=
  { s with pos := Function.update s.pos rank ((s.pos rank).next rank) }

/-- One step of a process; `none` if it cannot move: it is finished, or it waits for the others in a collective
opening.  `sync`: opening synchronises; `ranks`: number of processes; `calls`: number of calls of the builder. -/
def step (sync : Bool) (ranks calls : ℕ) (s : St) (rank : ℕ) : Option St :=
  if ranks ≤ rank ∨ calls ≤ (s.pos rank).call then none else
  match instr (s.pos rank).stmt with
  | .beginWrite f => some { s.move rank with files := Function.update s.files f .partialContent }
  | .endWrite f => some { s.move rank with files := Function.update s.files f (.complete (s.pos rank).call) }
  | .enter => some (s.move rank)
  | .leave =>
    if sync = true ∧ ¬ ∀ r < ranks, (s.pos r).atLeast (s.pos rank) then none else some (s.move rank)
  | .read f =>
    if s.files f = .complete (s.pos rank).call then some (s.move rank)
    else some { s.move rank with faults := s.faults ++ [⟨rank, (s.pos rank).call, f, s.files f⟩] }

/-- An execution under a schedule, the list of the processes that try to move. -/
def run (sync : Bool) (ranks calls : ℕ) : List ℕ → St → St
  | [], s => s
  | r :: l, s => run sync ranks calls l ((step sync ranks calls s r).getD s)

end Dxss.Files
