import Verif.Parse.Actions

/-!
# Fields that the operations of the parser do not change

Generated by `tools/gen_frame.py`. Lemmas only, no definitions.
-/

namespace FB.Parse.Frame

open FB.Parse

@[simp] theorem setCode_str (s : PS) (c : List CW) : (s.setCode c).str = s.str := rfl
@[simp] theorem setCode_pos (s : PS) (c : List CW) : (s.setCode c).pos = s.pos := rfl
@[simp] theorem setCode_maxPos (s : PS) (c : List CW) : (s.setCode c).maxPos = s.maxPos := rfl
@[simp] theorem setCode_errs (s : PS) (c : List CW) : (s.setCode c).errs = s.errs := rfl
@[simp] theorem setCode_trail (s : PS) (c : List CW) : (s.setCode c).trail = s.trail := rfl
@[simp] theorem setCode_lvl (s : PS) (c : List CW) : (s.setCode c).lvl = s.lvl := rfl
@[simp] theorem setCode_linenum (s : PS) (c : List CW) : (s.setCode c).linenum = s.linenum := rfl
@[simp] theorem setCode_expand (s : PS) (c : List CW) : (s.setCode c).expand = s.expand := rfl
@[simp] theorem setCode_varStk (s : PS) (c : List CW) : (s.setCode c).varStk = s.varStk := rfl
@[simp] theorem setCode_procStack (s : PS) (c : List CW) : (s.setCode c).procStack = s.procStack := rfl
@[simp] theorem setCode_vars (s : PS) (c : List CW) : (s.setCode c).vars = s.vars := rfl
@[simp] theorem setCode_labels (s : PS) (c : List CW) : (s.setCode c).labels = s.labels := rfl
@[simp] theorem setCode_jumps (s : PS) (c : List CW) : (s.setCode c).jumps = s.jumps := rfl
@[simp] theorem setCode_labelNum (s : PS) (c : List CW) : (s.setCode c).labelNum = s.labelNum := rfl
@[simp] theorem setCode_lastLabel (s : PS) (c : List CW) : (s.setCode c).lastLabel = s.lastLabel := rfl
@[simp] theorem setCode_curParams (s : PS) (c : List CW) : (s.setCode c).curParams = s.curParams := rfl
@[simp] theorem setCode_lastVar (s : PS) (c : List CW) : (s.setCode c).lastVar = s.lastVar := rfl
@[simp] theorem emit_str (s : PS) (k : CK) : (s.emit k).str = s.str := rfl
@[simp] theorem emit_pos (s : PS) (k : CK) : (s.emit k).pos = s.pos := rfl
@[simp] theorem emit_maxPos (s : PS) (k : CK) : (s.emit k).maxPos = s.maxPos := rfl
@[simp] theorem emit_errs (s : PS) (k : CK) : (s.emit k).errs = s.errs := rfl
@[simp] theorem emit_trail (s : PS) (k : CK) : (s.emit k).trail = s.trail := rfl
@[simp] theorem emit_lvl (s : PS) (k : CK) : (s.emit k).lvl = s.lvl := rfl
@[simp] theorem emit_linenum (s : PS) (k : CK) : (s.emit k).linenum = s.linenum := rfl
@[simp] theorem emit_expand (s : PS) (k : CK) : (s.emit k).expand = s.expand := rfl
@[simp] theorem emit_varStk (s : PS) (k : CK) : (s.emit k).varStk = s.varStk := rfl
@[simp] theorem emit_procStack (s : PS) (k : CK) : (s.emit k).procStack = s.procStack := rfl
@[simp] theorem emit_vars (s : PS) (k : CK) : (s.emit k).vars = s.vars := rfl
@[simp] theorem emit_labels (s : PS) (k : CK) : (s.emit k).labels = s.labels := rfl
@[simp] theorem emit_jumps (s : PS) (k : CK) : (s.emit k).jumps = s.jumps := rfl
@[simp] theorem emit_labelNum (s : PS) (k : CK) : (s.emit k).labelNum = s.labelNum := rfl
@[simp] theorem emit_lastLabel (s : PS) (k : CK) : (s.emit k).lastLabel = s.lastLabel := rfl
@[simp] theorem emit_curParams (s : PS) (k : CK) : (s.emit k).curParams = s.curParams := rfl
@[simp] theorem emit_lastVar (s : PS) (k : CK) : (s.emit k).lastVar = s.lastVar := rfl
@[simp] theorem error_str (s : PS) (m : Str) : (s.error m).str = s.str := by
  simp only [PS.error]; (repeat' split) <;> rfl
@[simp] theorem error_pos (s : PS) (m : Str) : (s.error m).pos = s.pos := by
  simp only [PS.error]; (repeat' split) <;> rfl
@[simp] theorem error_lvl (s : PS) (m : Str) : (s.error m).lvl = s.lvl := by
  simp only [PS.error]; (repeat' split) <;> rfl
@[simp] theorem error_linenum (s : PS) (m : Str) : (s.error m).linenum = s.linenum := by
  simp only [PS.error]; (repeat' split) <;> rfl
@[simp] theorem error_expand (s : PS) (m : Str) : (s.error m).expand = s.expand := by
  simp only [PS.error]; (repeat' split) <;> rfl
@[simp] theorem error_varStk (s : PS) (m : Str) : (s.error m).varStk = s.varStk := by
  simp only [PS.error]; (repeat' split) <;> rfl
@[simp] theorem error_procs (s : PS) (m : Str) : (s.error m).procs = s.procs := by
  simp only [PS.error]; (repeat' split) <;> rfl
@[simp] theorem error_procStack (s : PS) (m : Str) : (s.error m).procStack = s.procStack := by
  simp only [PS.error]; (repeat' split) <;> rfl
@[simp] theorem error_vars (s : PS) (m : Str) : (s.error m).vars = s.vars := by
  simp only [PS.error]; (repeat' split) <;> rfl
@[simp] theorem error_labels (s : PS) (m : Str) : (s.error m).labels = s.labels := by
  simp only [PS.error]; (repeat' split) <;> rfl
@[simp] theorem error_jumps (s : PS) (m : Str) : (s.error m).jumps = s.jumps := by
  simp only [PS.error]; (repeat' split) <;> rfl
@[simp] theorem error_labelNum (s : PS) (m : Str) : (s.error m).labelNum = s.labelNum := by
  simp only [PS.error]; (repeat' split) <;> rfl
@[simp] theorem error_lastLabel (s : PS) (m : Str) : (s.error m).lastLabel = s.lastLabel := by
  simp only [PS.error]; (repeat' split) <;> rfl
@[simp] theorem error_curParams (s : PS) (m : Str) : (s.error m).curParams = s.curParams := by
  simp only [PS.error]; (repeat' split) <;> rfl
@[simp] theorem error_lastVar (s : PS) (m : Str) : (s.error m).lastVar = s.lastVar := by
  simp only [PS.error]; (repeat' split) <;> rfl
@[simp] theorem loopError_str (s : PS) (m : Str) : (s.loopError m).str = s.str := rfl
@[simp] theorem loopError_pos (s : PS) (m : Str) : (s.loopError m).pos = s.pos := rfl
@[simp] theorem loopError_lvl (s : PS) (m : Str) : (s.loopError m).lvl = s.lvl := rfl
@[simp] theorem loopError_linenum (s : PS) (m : Str) : (s.loopError m).linenum = s.linenum := rfl
@[simp] theorem loopError_expand (s : PS) (m : Str) : (s.loopError m).expand = s.expand := rfl
@[simp] theorem loopError_varStk (s : PS) (m : Str) : (s.loopError m).varStk = s.varStk := rfl
@[simp] theorem loopError_procs (s : PS) (m : Str) : (s.loopError m).procs = s.procs := rfl
@[simp] theorem loopError_procStack (s : PS) (m : Str) : (s.loopError m).procStack = s.procStack := rfl
@[simp] theorem loopError_vars (s : PS) (m : Str) : (s.loopError m).vars = s.vars := rfl
@[simp] theorem loopError_labels (s : PS) (m : Str) : (s.loopError m).labels = s.labels := rfl
@[simp] theorem loopError_jumps (s : PS) (m : Str) : (s.loopError m).jumps = s.jumps := rfl
@[simp] theorem loopError_labelNum (s : PS) (m : Str) : (s.loopError m).labelNum = s.labelNum := rfl
@[simp] theorem loopError_lastLabel (s : PS) (m : Str) : (s.loopError m).lastLabel = s.lastLabel := rfl
@[simp] theorem loopError_curParams (s : PS) (m : Str) : (s.loopError m).curParams = s.curParams := rfl
@[simp] theorem loopError_lastVar (s : PS) (m : Str) : (s.loopError m).lastVar = s.lastVar := rfl
@[simp] theorem restore_str (s : PS) (v : PS.Saved) : (s.restore v).str = s.str := rfl
@[simp] theorem restore_maxPos (s : PS) (v : PS.Saved) : (s.restore v).maxPos = s.maxPos := rfl
@[simp] theorem restore_errs (s : PS) (v : PS.Saved) : (s.restore v).errs = s.errs := rfl
@[simp] theorem restore_trail (s : PS) (v : PS.Saved) : (s.restore v).trail = s.trail := rfl
@[simp] theorem restore_lvl (s : PS) (v : PS.Saved) : (s.restore v).lvl = s.lvl := rfl
@[simp] theorem restore_linenum (s : PS) (v : PS.Saved) : (s.restore v).linenum = s.linenum := rfl
@[simp] theorem restore_varStk (s : PS) (v : PS.Saved) : (s.restore v).varStk = s.varStk := rfl
@[simp] theorem restore_procStack (s : PS) (v : PS.Saved) : (s.restore v).procStack = s.procStack := rfl
@[simp] theorem restore_vars (s : PS) (v : PS.Saved) : (s.restore v).vars = s.vars := rfl
@[simp] theorem restore_labels (s : PS) (v : PS.Saved) : (s.restore v).labels = s.labels := rfl
@[simp] theorem restore_jumps (s : PS) (v : PS.Saved) : (s.restore v).jumps = s.jumps := rfl
@[simp] theorem restore_labelNum (s : PS) (v : PS.Saved) : (s.restore v).labelNum = s.labelNum := rfl
@[simp] theorem restore_lastLabel (s : PS) (v : PS.Saved) : (s.restore v).lastLabel = s.lastLabel := rfl
@[simp] theorem restore_curParams (s : PS) (v : PS.Saved) : (s.restore v).curParams = s.curParams := rfl
@[simp] theorem restore_lastVar (s : PS) (v : PS.Saved) : (s.restore v).lastVar = s.lastVar := rfl
@[simp] theorem adv_str (s : PS) : s.adv.str = s.str := rfl
@[simp] theorem adv_maxPos (s : PS) : s.adv.maxPos = s.maxPos := rfl
@[simp] theorem adv_errs (s : PS) : s.adv.errs = s.errs := rfl
@[simp] theorem adv_trail (s : PS) : s.adv.trail = s.trail := rfl
@[simp] theorem adv_lvl (s : PS) : s.adv.lvl = s.lvl := rfl
@[simp] theorem adv_linenum (s : PS) : s.adv.linenum = s.linenum := rfl
@[simp] theorem adv_expand (s : PS) : s.adv.expand = s.expand := rfl
@[simp] theorem adv_varStk (s : PS) : s.adv.varStk = s.varStk := rfl
@[simp] theorem adv_procs (s : PS) : s.adv.procs = s.procs := rfl
@[simp] theorem adv_procStack (s : PS) : s.adv.procStack = s.procStack := rfl
@[simp] theorem adv_vars (s : PS) : s.adv.vars = s.vars := rfl
@[simp] theorem adv_labels (s : PS) : s.adv.labels = s.labels := rfl
@[simp] theorem adv_jumps (s : PS) : s.adv.jumps = s.jumps := rfl
@[simp] theorem adv_labelNum (s : PS) : s.adv.labelNum = s.labelNum := rfl
@[simp] theorem adv_lastLabel (s : PS) : s.adv.lastLabel = s.lastLabel := rfl
@[simp] theorem adv_curParams (s : PS) : s.adv.curParams = s.curParams := rfl
@[simp] theorem adv_lastVar (s : PS) : s.adv.lastVar = s.lastVar := rfl
@[simp] theorem expect_str (s : PS) (c : Nat) : (s.expect c).2.str = s.str := by
  simp only [PS.expect]; (repeat' split) <;> simp
@[simp] theorem expect_lvl (s : PS) (c : Nat) : (s.expect c).2.lvl = s.lvl := by
  simp only [PS.expect]; (repeat' split) <;> simp
@[simp] theorem expect_linenum (s : PS) (c : Nat) : (s.expect c).2.linenum = s.linenum := by
  simp only [PS.expect]; (repeat' split) <;> simp
@[simp] theorem expect_expand (s : PS) (c : Nat) : (s.expect c).2.expand = s.expand := by
  simp only [PS.expect]; (repeat' split) <;> simp
@[simp] theorem expect_varStk (s : PS) (c : Nat) : (s.expect c).2.varStk = s.varStk := by
  simp only [PS.expect]; (repeat' split) <;> simp
@[simp] theorem expect_procs (s : PS) (c : Nat) : (s.expect c).2.procs = s.procs := by
  simp only [PS.expect]; (repeat' split) <;> simp
@[simp] theorem expect_procStack (s : PS) (c : Nat) : (s.expect c).2.procStack = s.procStack := by
  simp only [PS.expect]; (repeat' split) <;> simp
@[simp] theorem expect_vars (s : PS) (c : Nat) : (s.expect c).2.vars = s.vars := by
  simp only [PS.expect]; (repeat' split) <;> simp
@[simp] theorem expect_labels (s : PS) (c : Nat) : (s.expect c).2.labels = s.labels := by
  simp only [PS.expect]; (repeat' split) <;> simp
@[simp] theorem expect_jumps (s : PS) (c : Nat) : (s.expect c).2.jumps = s.jumps := by
  simp only [PS.expect]; (repeat' split) <;> simp
@[simp] theorem expect_labelNum (s : PS) (c : Nat) : (s.expect c).2.labelNum = s.labelNum := by
  simp only [PS.expect]; (repeat' split) <;> simp
@[simp] theorem expect_lastLabel (s : PS) (c : Nat) : (s.expect c).2.lastLabel = s.lastLabel := by
  simp only [PS.expect]; (repeat' split) <;> simp
@[simp] theorem expect_curParams (s : PS) (c : Nat) : (s.expect c).2.curParams = s.curParams := by
  simp only [PS.expect]; (repeat' split) <;> simp
@[simp] theorem expect_lastVar (s : PS) (c : Nat) : (s.expect c).2.lastVar = s.lastVar := by
  simp only [PS.expect]; (repeat' split) <;> simp
@[simp] theorem skipws_str (s : PS) : s.skipws.str = s.str := rfl
@[simp] theorem skipws_maxPos (s : PS) : s.skipws.maxPos = s.maxPos := rfl
@[simp] theorem skipws_errs (s : PS) : s.skipws.errs = s.errs := rfl
@[simp] theorem skipws_trail (s : PS) : s.skipws.trail = s.trail := rfl
@[simp] theorem skipws_lvl (s : PS) : s.skipws.lvl = s.lvl := rfl
@[simp] theorem skipws_linenum (s : PS) : s.skipws.linenum = s.linenum := rfl
@[simp] theorem skipws_expand (s : PS) : s.skipws.expand = s.expand := rfl
@[simp] theorem skipws_varStk (s : PS) : s.skipws.varStk = s.varStk := rfl
@[simp] theorem skipws_procs (s : PS) : s.skipws.procs = s.procs := rfl
@[simp] theorem skipws_procStack (s : PS) : s.skipws.procStack = s.procStack := rfl
@[simp] theorem skipws_vars (s : PS) : s.skipws.vars = s.vars := rfl
@[simp] theorem skipws_labels (s : PS) : s.skipws.labels = s.labels := rfl
@[simp] theorem skipws_jumps (s : PS) : s.skipws.jumps = s.jumps := rfl
@[simp] theorem skipws_labelNum (s : PS) : s.skipws.labelNum = s.labelNum := rfl
@[simp] theorem skipws_lastLabel (s : PS) : s.skipws.lastLabel = s.lastLabel := rfl
@[simp] theorem skipws_curParams (s : PS) : s.skipws.curParams = s.curParams := rfl
@[simp] theorem skipws_lastVar (s : PS) : s.skipws.lastVar = s.lastVar := rfl
@[simp] theorem eol_str (s : PS) : s.eol.2.str = s.str := by
  simp only [PS.eol]; (repeat' split) <;> simp
@[simp] theorem eol_maxPos (s : PS) : s.eol.2.maxPos = s.maxPos := by
  simp only [PS.eol]; (repeat' split) <;> simp
@[simp] theorem eol_errs (s : PS) : s.eol.2.errs = s.errs := by
  simp only [PS.eol]; (repeat' split) <;> simp
@[simp] theorem eol_trail (s : PS) : s.eol.2.trail = s.trail := by
  simp only [PS.eol]; (repeat' split) <;> simp
@[simp] theorem eol_lvl (s : PS) : s.eol.2.lvl = s.lvl := by
  simp only [PS.eol]; (repeat' split) <;> simp
@[simp] theorem eol_linenum (s : PS) : s.eol.2.linenum = s.linenum := by
  simp only [PS.eol]; (repeat' split) <;> simp
@[simp] theorem eol_expand (s : PS) : s.eol.2.expand = s.expand := by
  simp only [PS.eol]; (repeat' split) <;> simp
@[simp] theorem eol_varStk (s : PS) : s.eol.2.varStk = s.varStk := by
  simp only [PS.eol]; (repeat' split) <;> simp
@[simp] theorem eol_procs (s : PS) : s.eol.2.procs = s.procs := by
  simp only [PS.eol]; (repeat' split) <;> simp
@[simp] theorem eol_procStack (s : PS) : s.eol.2.procStack = s.procStack := by
  simp only [PS.eol]; (repeat' split) <;> simp
@[simp] theorem eol_vars (s : PS) : s.eol.2.vars = s.vars := by
  simp only [PS.eol]; (repeat' split) <;> simp
@[simp] theorem eol_labels (s : PS) : s.eol.2.labels = s.labels := by
  simp only [PS.eol]; (repeat' split) <;> simp
@[simp] theorem eol_jumps (s : PS) : s.eol.2.jumps = s.jumps := by
  simp only [PS.eol]; (repeat' split) <;> simp
@[simp] theorem eol_labelNum (s : PS) : s.eol.2.labelNum = s.labelNum := by
  simp only [PS.eol]; (repeat' split) <;> simp
@[simp] theorem eol_lastLabel (s : PS) : s.eol.2.lastLabel = s.lastLabel := by
  simp only [PS.eol]; (repeat' split) <;> simp
@[simp] theorem eol_curParams (s : PS) : s.eol.2.curParams = s.curParams := by
  simp only [PS.eol]; (repeat' split) <;> simp
@[simp] theorem eol_lastVar (s : PS) : s.eol.2.lastVar = s.lastVar := by
  simp only [PS.eol]; (repeat' split) <;> simp
@[simp] theorem getIdent_str (s : PS) : s.getIdent.2.str = s.str := by
  simp only [PS.getIdent]; (repeat' split) <;> simp
@[simp] theorem getIdent_maxPos (s : PS) : s.getIdent.2.maxPos = s.maxPos := by
  simp only [PS.getIdent]; (repeat' split) <;> simp
@[simp] theorem getIdent_errs (s : PS) : s.getIdent.2.errs = s.errs := by
  simp only [PS.getIdent]; (repeat' split) <;> simp
@[simp] theorem getIdent_trail (s : PS) : s.getIdent.2.trail = s.trail := by
  simp only [PS.getIdent]; (repeat' split) <;> simp
@[simp] theorem getIdent_lvl (s : PS) : s.getIdent.2.lvl = s.lvl := by
  simp only [PS.getIdent]; (repeat' split) <;> simp
@[simp] theorem getIdent_linenum (s : PS) : s.getIdent.2.linenum = s.linenum := by
  simp only [PS.getIdent]; (repeat' split) <;> simp
@[simp] theorem getIdent_expand (s : PS) : s.getIdent.2.expand = s.expand := by
  simp only [PS.getIdent]; (repeat' split) <;> simp
@[simp] theorem getIdent_varStk (s : PS) : s.getIdent.2.varStk = s.varStk := by
  simp only [PS.getIdent]; (repeat' split) <;> simp
@[simp] theorem getIdent_procs (s : PS) : s.getIdent.2.procs = s.procs := by
  simp only [PS.getIdent]; (repeat' split) <;> simp
@[simp] theorem getIdent_procStack (s : PS) : s.getIdent.2.procStack = s.procStack := by
  simp only [PS.getIdent]; (repeat' split) <;> simp
@[simp] theorem getIdent_vars (s : PS) : s.getIdent.2.vars = s.vars := by
  simp only [PS.getIdent]; (repeat' split) <;> simp
@[simp] theorem getIdent_labels (s : PS) : s.getIdent.2.labels = s.labels := by
  simp only [PS.getIdent]; (repeat' split) <;> simp
@[simp] theorem getIdent_jumps (s : PS) : s.getIdent.2.jumps = s.jumps := by
  simp only [PS.getIdent]; (repeat' split) <;> simp
@[simp] theorem getIdent_labelNum (s : PS) : s.getIdent.2.labelNum = s.labelNum := by
  simp only [PS.getIdent]; (repeat' split) <;> simp
@[simp] theorem getIdent_lastLabel (s : PS) : s.getIdent.2.lastLabel = s.lastLabel := by
  simp only [PS.getIdent]; (repeat' split) <;> simp
@[simp] theorem getIdent_curParams (s : PS) : s.getIdent.2.curParams = s.curParams := by
  simp only [PS.getIdent]; (repeat' split) <;> simp
@[simp] theorem getIdent_lastVar (s : PS) : s.getIdent.2.lastVar = s.lastVar := by
  simp only [PS.getIdent]; (repeat' split) <;> simp
@[simp] theorem addText_str (s : PS) (t : Str) : (s.addText t).str = s.str := by
  unfold PS.addText; split <;> rfl
@[simp] theorem addText_pos (s : PS) (t : Str) : (s.addText t).pos = s.pos := by
  unfold PS.addText; split <;> rfl
@[simp] theorem addText_maxPos (s : PS) (t : Str) : (s.addText t).maxPos = s.maxPos := by
  unfold PS.addText; split <;> rfl
@[simp] theorem addText_errs (s : PS) (t : Str) : (s.addText t).errs = s.errs := by
  unfold PS.addText; split <;> rfl
@[simp] theorem addText_trail (s : PS) (t : Str) : (s.addText t).trail = s.trail := by
  unfold PS.addText; split <;> rfl
@[simp] theorem addText_lvl (s : PS) (t : Str) : (s.addText t).lvl = s.lvl := by
  unfold PS.addText; split <;> rfl
@[simp] theorem addText_linenum (s : PS) (t : Str) : (s.addText t).linenum = s.linenum := by
  unfold PS.addText; split <;> rfl
@[simp] theorem addText_varStk (s : PS) (t : Str) : (s.addText t).varStk = s.varStk := by
  unfold PS.addText; split <;> rfl
@[simp] theorem addText_procs (s : PS) (t : Str) : (s.addText t).procs = s.procs := by
  unfold PS.addText; split <;> rfl
@[simp] theorem addText_procStack (s : PS) (t : Str) : (s.addText t).procStack = s.procStack := by
  unfold PS.addText; split <;> rfl
@[simp] theorem addText_vars (s : PS) (t : Str) : (s.addText t).vars = s.vars := by
  unfold PS.addText; split <;> rfl
@[simp] theorem addText_labels (s : PS) (t : Str) : (s.addText t).labels = s.labels := by
  unfold PS.addText; split <;> rfl
@[simp] theorem addText_jumps (s : PS) (t : Str) : (s.addText t).jumps = s.jumps := by
  unfold PS.addText; split <;> rfl
@[simp] theorem addText_labelNum (s : PS) (t : Str) : (s.addText t).labelNum = s.labelNum := by
  unfold PS.addText; split <;> rfl
@[simp] theorem addText_lastLabel (s : PS) (t : Str) : (s.addText t).lastLabel = s.lastLabel := by
  unfold PS.addText; split <;> rfl
@[simp] theorem addText_curParams (s : PS) (t : Str) : (s.addText t).curParams = s.curParams := by
  unfold PS.addText; split <;> rfl
@[simp] theorem addText_lastVar (s : PS) (t : Str) : (s.addText t).lastVar = s.lastVar := by
  unfold PS.addText; split <;> rfl
@[simp] theorem addSInt_str (s : PS) (x : Nat) : (s.addSInt x).str = s.str := rfl
@[simp] theorem addSInt_pos (s : PS) (x : Nat) : (s.addSInt x).pos = s.pos := rfl
@[simp] theorem addSInt_maxPos (s : PS) (x : Nat) : (s.addSInt x).maxPos = s.maxPos := rfl
@[simp] theorem addSInt_errs (s : PS) (x : Nat) : (s.addSInt x).errs = s.errs := rfl
@[simp] theorem addSInt_trail (s : PS) (x : Nat) : (s.addSInt x).trail = s.trail := rfl
@[simp] theorem addSInt_lvl (s : PS) (x : Nat) : (s.addSInt x).lvl = s.lvl := rfl
@[simp] theorem addSInt_linenum (s : PS) (x : Nat) : (s.addSInt x).linenum = s.linenum := rfl
@[simp] theorem addSInt_varStk (s : PS) (x : Nat) : (s.addSInt x).varStk = s.varStk := rfl
@[simp] theorem addSInt_procs (s : PS) (x : Nat) : (s.addSInt x).procs = s.procs := rfl
@[simp] theorem addSInt_procStack (s : PS) (x : Nat) : (s.addSInt x).procStack = s.procStack := rfl
@[simp] theorem addSInt_vars (s : PS) (x : Nat) : (s.addSInt x).vars = s.vars := rfl
@[simp] theorem addSInt_labels (s : PS) (x : Nat) : (s.addSInt x).labels = s.labels := rfl
@[simp] theorem addSInt_jumps (s : PS) (x : Nat) : (s.addSInt x).jumps = s.jumps := rfl
@[simp] theorem addSInt_labelNum (s : PS) (x : Nat) : (s.addSInt x).labelNum = s.labelNum := rfl
@[simp] theorem addSInt_lastLabel (s : PS) (x : Nat) : (s.addSInt x).lastLabel = s.lastLabel := rfl
@[simp] theorem addSInt_curParams (s : PS) (x : Nat) : (s.addSInt x).curParams = s.curParams := rfl
@[simp] theorem addSInt_lastVar (s : PS) (x : Nat) : (s.addSInt x).lastVar = s.lastVar := rfl
@[simp] theorem addSFp_str (s : PS) (n : Str) : (s.addSFp n).str = s.str := rfl
@[simp] theorem addSFp_pos (s : PS) (n : Str) : (s.addSFp n).pos = s.pos := rfl
@[simp] theorem addSFp_maxPos (s : PS) (n : Str) : (s.addSFp n).maxPos = s.maxPos := rfl
@[simp] theorem addSFp_errs (s : PS) (n : Str) : (s.addSFp n).errs = s.errs := rfl
@[simp] theorem addSFp_trail (s : PS) (n : Str) : (s.addSFp n).trail = s.trail := rfl
@[simp] theorem addSFp_lvl (s : PS) (n : Str) : (s.addSFp n).lvl = s.lvl := rfl
@[simp] theorem addSFp_linenum (s : PS) (n : Str) : (s.addSFp n).linenum = s.linenum := rfl
@[simp] theorem addSFp_varStk (s : PS) (n : Str) : (s.addSFp n).varStk = s.varStk := rfl
@[simp] theorem addSFp_procs (s : PS) (n : Str) : (s.addSFp n).procs = s.procs := rfl
@[simp] theorem addSFp_procStack (s : PS) (n : Str) : (s.addSFp n).procStack = s.procStack := rfl
@[simp] theorem addSFp_vars (s : PS) (n : Str) : (s.addSFp n).vars = s.vars := rfl
@[simp] theorem addSFp_labels (s : PS) (n : Str) : (s.addSFp n).labels = s.labels := rfl
@[simp] theorem addSFp_jumps (s : PS) (n : Str) : (s.addSFp n).jumps = s.jumps := rfl
@[simp] theorem addSFp_labelNum (s : PS) (n : Str) : (s.addSFp n).labelNum = s.labelNum := rfl
@[simp] theorem addSFp_lastLabel (s : PS) (n : Str) : (s.addSFp n).lastLabel = s.lastLabel := rfl
@[simp] theorem addSFp_curParams (s : PS) (n : Str) : (s.addSFp n).curParams = s.curParams := rfl
@[simp] theorem addSFp_lastVar (s : PS) (n : Str) : (s.addSFp n).lastVar = s.lastVar := rfl
@[simp] theorem addSVar_str (s : PS) (n : Str) : (s.addSVar n).str = s.str := rfl
@[simp] theorem addSVar_pos (s : PS) (n : Str) : (s.addSVar n).pos = s.pos := rfl
@[simp] theorem addSVar_maxPos (s : PS) (n : Str) : (s.addSVar n).maxPos = s.maxPos := rfl
@[simp] theorem addSVar_errs (s : PS) (n : Str) : (s.addSVar n).errs = s.errs := rfl
@[simp] theorem addSVar_trail (s : PS) (n : Str) : (s.addSVar n).trail = s.trail := rfl
@[simp] theorem addSVar_lvl (s : PS) (n : Str) : (s.addSVar n).lvl = s.lvl := rfl
@[simp] theorem addSVar_linenum (s : PS) (n : Str) : (s.addSVar n).linenum = s.linenum := rfl
@[simp] theorem addSVar_varStk (s : PS) (n : Str) : (s.addSVar n).varStk = s.varStk := rfl
@[simp] theorem addSVar_procs (s : PS) (n : Str) : (s.addSVar n).procs = s.procs := rfl
@[simp] theorem addSVar_procStack (s : PS) (n : Str) : (s.addSVar n).procStack = s.procStack := rfl
@[simp] theorem addSVar_vars (s : PS) (n : Str) : (s.addSVar n).vars = s.vars := rfl
@[simp] theorem addSVar_labels (s : PS) (n : Str) : (s.addSVar n).labels = s.labels := rfl
@[simp] theorem addSVar_jumps (s : PS) (n : Str) : (s.addSVar n).jumps = s.jumps := rfl
@[simp] theorem addSVar_labelNum (s : PS) (n : Str) : (s.addSVar n).labelNum = s.labelNum := rfl
@[simp] theorem addSVar_lastLabel (s : PS) (n : Str) : (s.addSVar n).lastLabel = s.lastLabel := rfl
@[simp] theorem addSVar_curParams (s : PS) (n : Str) : (s.addSVar n).curParams = s.curParams := rfl
@[simp] theorem addSVar_lastVar (s : PS) (n : Str) : (s.addSVar n).lastVar = s.lastVar := rfl
@[simp] theorem addSLit_str (s : PS) (c : Nat) : (s.addSLit c).str = s.str := by
  unfold PS.addSLit; split <;> rfl
@[simp] theorem addSLit_pos (s : PS) (c : Nat) : (s.addSLit c).pos = s.pos := by
  unfold PS.addSLit; split <;> rfl
@[simp] theorem addSLit_maxPos (s : PS) (c : Nat) : (s.addSLit c).maxPos = s.maxPos := by
  unfold PS.addSLit; split <;> rfl
@[simp] theorem addSLit_errs (s : PS) (c : Nat) : (s.addSLit c).errs = s.errs := by
  unfold PS.addSLit; split <;> rfl
@[simp] theorem addSLit_trail (s : PS) (c : Nat) : (s.addSLit c).trail = s.trail := by
  unfold PS.addSLit; split <;> rfl
@[simp] theorem addSLit_lvl (s : PS) (c : Nat) : (s.addSLit c).lvl = s.lvl := by
  unfold PS.addSLit; split <;> rfl
@[simp] theorem addSLit_linenum (s : PS) (c : Nat) : (s.addSLit c).linenum = s.linenum := by
  unfold PS.addSLit; split <;> rfl
@[simp] theorem addSLit_varStk (s : PS) (c : Nat) : (s.addSLit c).varStk = s.varStk := by
  unfold PS.addSLit; split <;> rfl
@[simp] theorem addSLit_procs (s : PS) (c : Nat) : (s.addSLit c).procs = s.procs := by
  unfold PS.addSLit; split <;> rfl
@[simp] theorem addSLit_procStack (s : PS) (c : Nat) : (s.addSLit c).procStack = s.procStack := by
  unfold PS.addSLit; split <;> rfl
@[simp] theorem addSLit_vars (s : PS) (c : Nat) : (s.addSLit c).vars = s.vars := by
  unfold PS.addSLit; split <;> rfl
@[simp] theorem addSLit_labels (s : PS) (c : Nat) : (s.addSLit c).labels = s.labels := by
  unfold PS.addSLit; split <;> rfl
@[simp] theorem addSLit_jumps (s : PS) (c : Nat) : (s.addSLit c).jumps = s.jumps := by
  unfold PS.addSLit; split <;> rfl
@[simp] theorem addSLit_labelNum (s : PS) (c : Nat) : (s.addSLit c).labelNum = s.labelNum := by
  unfold PS.addSLit; split <;> rfl
@[simp] theorem addSLit_lastLabel (s : PS) (c : Nat) : (s.addSLit c).lastLabel = s.lastLabel := by
  unfold PS.addSLit; split <;> rfl
@[simp] theorem addSLit_curParams (s : PS) (c : Nat) : (s.addSLit c).curParams = s.curParams := by
  unfold PS.addSLit; split <;> rfl
@[simp] theorem addSLit_lastVar (s : PS) (c : Nat) : (s.addSLit c).lastVar = s.lastVar := by
  unfold PS.addSLit; split <;> rfl
@[simp] theorem addSStr_str (s : PS) (t : Str) : (s.addSStr t).str = s.str := rfl
@[simp] theorem addSStr_pos (s : PS) (t : Str) : (s.addSStr t).pos = s.pos := rfl
@[simp] theorem addSStr_maxPos (s : PS) (t : Str) : (s.addSStr t).maxPos = s.maxPos := rfl
@[simp] theorem addSStr_errs (s : PS) (t : Str) : (s.addSStr t).errs = s.errs := rfl
@[simp] theorem addSStr_trail (s : PS) (t : Str) : (s.addSStr t).trail = s.trail := rfl
@[simp] theorem addSStr_lvl (s : PS) (t : Str) : (s.addSStr t).lvl = s.lvl := rfl
@[simp] theorem addSStr_linenum (s : PS) (t : Str) : (s.addSStr t).linenum = s.linenum := rfl
@[simp] theorem addSStr_varStk (s : PS) (t : Str) : (s.addSStr t).varStk = s.varStk := rfl
@[simp] theorem addSStr_procs (s : PS) (t : Str) : (s.addSStr t).procs = s.procs := rfl
@[simp] theorem addSStr_procStack (s : PS) (t : Str) : (s.addSStr t).procStack = s.procStack := rfl
@[simp] theorem addSStr_vars (s : PS) (t : Str) : (s.addSStr t).vars = s.vars := rfl
@[simp] theorem addSStr_labels (s : PS) (t : Str) : (s.addSStr t).labels = s.labels := rfl
@[simp] theorem addSStr_jumps (s : PS) (t : Str) : (s.addSStr t).jumps = s.jumps := rfl
@[simp] theorem addSStr_labelNum (s : PS) (t : Str) : (s.addSStr t).labelNum = s.labelNum := rfl
@[simp] theorem addSStr_lastLabel (s : PS) (t : Str) : (s.addSStr t).lastLabel = s.lastLabel := rfl
@[simp] theorem addSStr_curParams (s : PS) (t : Str) : (s.addSStr t).curParams = s.curParams := rfl
@[simp] theorem addSStr_lastVar (s : PS) (t : Str) : (s.addSStr t).lastVar = s.lastVar := rfl
@[simp] theorem addTextStr_str (s : PS) (t : Str) : (s.addTextStr t).str = s.str := rfl
@[simp] theorem addTextStr_pos (s : PS) (t : Str) : (s.addTextStr t).pos = s.pos := rfl
@[simp] theorem addTextStr_maxPos (s : PS) (t : Str) : (s.addTextStr t).maxPos = s.maxPos := rfl
@[simp] theorem addTextStr_errs (s : PS) (t : Str) : (s.addTextStr t).errs = s.errs := rfl
@[simp] theorem addTextStr_trail (s : PS) (t : Str) : (s.addTextStr t).trail = s.trail := rfl
@[simp] theorem addTextStr_lvl (s : PS) (t : Str) : (s.addTextStr t).lvl = s.lvl := rfl
@[simp] theorem addTextStr_linenum (s : PS) (t : Str) : (s.addTextStr t).linenum = s.linenum := rfl
@[simp] theorem addTextStr_varStk (s : PS) (t : Str) : (s.addTextStr t).varStk = s.varStk := rfl
@[simp] theorem addTextStr_procs (s : PS) (t : Str) : (s.addTextStr t).procs = s.procs := rfl
@[simp] theorem addTextStr_procStack (s : PS) (t : Str) : (s.addTextStr t).procStack = s.procStack := rfl
@[simp] theorem addTextStr_vars (s : PS) (t : Str) : (s.addTextStr t).vars = s.vars := rfl
@[simp] theorem addTextStr_labels (s : PS) (t : Str) : (s.addTextStr t).labels = s.labels := rfl
@[simp] theorem addTextStr_jumps (s : PS) (t : Str) : (s.addTextStr t).jumps = s.jumps := rfl
@[simp] theorem addTextStr_labelNum (s : PS) (t : Str) : (s.addTextStr t).labelNum = s.labelNum := rfl
@[simp] theorem addTextStr_lastLabel (s : PS) (t : Str) : (s.addTextStr t).lastLabel = s.lastLabel := rfl
@[simp] theorem addTextStr_curParams (s : PS) (t : Str) : (s.addTextStr t).curParams = s.curParams := rfl
@[simp] theorem addTextStr_lastVar (s : PS) (t : Str) : (s.addTextStr t).lastVar = s.lastVar := rfl
@[simp] theorem pushLoop_str (s : PS) (t : LT) : (s.pushLoop t).2.str = s.str := by
  simp only [PS.pushLoop]; split <;> rfl
@[simp] theorem pushLoop_pos (s : PS) (t : LT) : (s.pushLoop t).2.pos = s.pos := by
  simp only [PS.pushLoop]; split <;> rfl
@[simp] theorem pushLoop_maxPos (s : PS) (t : LT) : (s.pushLoop t).2.maxPos = s.maxPos := by
  simp only [PS.pushLoop]; split <;> rfl
@[simp] theorem pushLoop_errs (s : PS) (t : LT) : (s.pushLoop t).2.errs = s.errs := by
  simp only [PS.pushLoop]; split <;> rfl
@[simp] theorem pushLoop_trail (s : PS) (t : LT) : (s.pushLoop t).2.trail = s.trail := by
  simp only [PS.pushLoop]; split <;> rfl
@[simp] theorem pushLoop_lvl (s : PS) (t : LT) : (s.pushLoop t).2.lvl = s.lvl := by
  simp only [PS.pushLoop]; split <;> rfl
@[simp] theorem pushLoop_linenum (s : PS) (t : LT) : (s.pushLoop t).2.linenum = s.linenum := by
  simp only [PS.pushLoop]; split <;> rfl
@[simp] theorem pushLoop_varStk (s : PS) (t : LT) : (s.pushLoop t).2.varStk = s.varStk := by
  simp only [PS.pushLoop]; split <;> rfl
@[simp] theorem pushLoop_procs (s : PS) (t : LT) : (s.pushLoop t).2.procs = s.procs := by
  simp only [PS.pushLoop]; split <;> rfl
@[simp] theorem pushLoop_procStack (s : PS) (t : LT) : (s.pushLoop t).2.procStack = s.procStack := by
  simp only [PS.pushLoop]; split <;> rfl
@[simp] theorem pushLoop_vars (s : PS) (t : LT) : (s.pushLoop t).2.vars = s.vars := by
  simp only [PS.pushLoop]; split <;> rfl
@[simp] theorem pushLoop_labels (s : PS) (t : LT) : (s.pushLoop t).2.labels = s.labels := by
  simp only [PS.pushLoop]; split <;> rfl
@[simp] theorem pushLoop_lastLabel (s : PS) (t : LT) : (s.pushLoop t).2.lastLabel = s.lastLabel := by
  simp only [PS.pushLoop]; split <;> rfl
@[simp] theorem pushLoop_curParams (s : PS) (t : LT) : (s.pushLoop t).2.curParams = s.curParams := by
  simp only [PS.pushLoop]; split <;> rfl
@[simp] theorem pushLoop_lastVar (s : PS) (t : LT) : (s.pushLoop t).2.lastVar = s.lastVar := by
  simp only [PS.pushLoop]; split <;> rfl
@[simp] theorem popLoopErr_str (s : PS) (t : LT) : (s.popLoopErr t).str = s.str := rfl
@[simp] theorem popLoopErr_pos (s : PS) (t : LT) : (s.popLoopErr t).pos = s.pos := rfl
@[simp] theorem popLoopErr_lvl (s : PS) (t : LT) : (s.popLoopErr t).lvl = s.lvl := rfl
@[simp] theorem popLoopErr_linenum (s : PS) (t : LT) : (s.popLoopErr t).linenum = s.linenum := rfl
@[simp] theorem popLoopErr_expand (s : PS) (t : LT) : (s.popLoopErr t).expand = s.expand := rfl
@[simp] theorem popLoopErr_varStk (s : PS) (t : LT) : (s.popLoopErr t).varStk = s.varStk := rfl
@[simp] theorem popLoopErr_procs (s : PS) (t : LT) : (s.popLoopErr t).procs = s.procs := rfl
@[simp] theorem popLoopErr_procStack (s : PS) (t : LT) : (s.popLoopErr t).procStack = s.procStack := rfl
@[simp] theorem popLoopErr_vars (s : PS) (t : LT) : (s.popLoopErr t).vars = s.vars := rfl
@[simp] theorem popLoopErr_labels (s : PS) (t : LT) : (s.popLoopErr t).labels = s.labels := rfl
@[simp] theorem popLoopErr_jumps (s : PS) (t : LT) : (s.popLoopErr t).jumps = s.jumps := rfl
@[simp] theorem popLoopErr_labelNum (s : PS) (t : LT) : (s.popLoopErr t).labelNum = s.labelNum := rfl
@[simp] theorem popLoopErr_lastLabel (s : PS) (t : LT) : (s.popLoopErr t).lastLabel = s.lastLabel := rfl
@[simp] theorem popLoopErr_curParams (s : PS) (t : LT) : (s.popLoopErr t).curParams = s.curParams := rfl
@[simp] theorem popLoopErr_lastVar (s : PS) (t : LT) : (s.popLoopErr t).lastVar = s.lastVar := rfl
@[simp] theorem popLoop_str (s : PS) (t : LT) : (s.popLoop t).2.str = s.str := by
  unfold PS.popLoop; (repeat' split) <;> simp <;> split <;> rfl
@[simp] theorem popLoop_pos (s : PS) (t : LT) : (s.popLoop t).2.pos = s.pos := by
  unfold PS.popLoop; (repeat' split) <;> simp <;> split <;> rfl
@[simp] theorem popLoop_lvl (s : PS) (t : LT) : (s.popLoop t).2.lvl = s.lvl := by
  unfold PS.popLoop; (repeat' split) <;> simp <;> split <;> rfl
@[simp] theorem popLoop_linenum (s : PS) (t : LT) : (s.popLoop t).2.linenum = s.linenum := by
  unfold PS.popLoop; (repeat' split) <;> simp <;> split <;> rfl
@[simp] theorem popLoop_varStk (s : PS) (t : LT) : (s.popLoop t).2.varStk = s.varStk := by
  unfold PS.popLoop; (repeat' split) <;> simp <;> split <;> rfl
@[simp] theorem popLoop_procs (s : PS) (t : LT) : (s.popLoop t).2.procs = s.procs := by
  unfold PS.popLoop; (repeat' split) <;> simp <;> split <;> rfl
@[simp] theorem popLoop_procStack (s : PS) (t : LT) : (s.popLoop t).2.procStack = s.procStack := by
  unfold PS.popLoop; (repeat' split) <;> simp <;> split <;> rfl
@[simp] theorem popLoop_vars (s : PS) (t : LT) : (s.popLoop t).2.vars = s.vars := by
  unfold PS.popLoop; (repeat' split) <;> simp <;> split <;> rfl
@[simp] theorem popLoop_labels (s : PS) (t : LT) : (s.popLoop t).2.labels = s.labels := by
  unfold PS.popLoop; (repeat' split) <;> simp <;> split <;> rfl
@[simp] theorem popLoop_labelNum (s : PS) (t : LT) : (s.popLoop t).2.labelNum = s.labelNum := by
  unfold PS.popLoop; (repeat' split) <;> simp <;> split <;> rfl
@[simp] theorem popLoop_lastLabel (s : PS) (t : LT) : (s.popLoop t).2.lastLabel = s.lastLabel := by
  unfold PS.popLoop; (repeat' split) <;> simp <;> split <;> rfl
@[simp] theorem popLoop_curParams (s : PS) (t : LT) : (s.popLoop t).2.curParams = s.curParams := by
  unfold PS.popLoop; (repeat' split) <;> simp <;> split <;> rfl
@[simp] theorem popLoop_lastVar (s : PS) (t : LT) : (s.popLoop t).2.lastVar = s.lastVar := by
  unfold PS.popLoop; (repeat' split) <;> simp <;> split <;> rfl
@[simp] theorem pushProc_str (s : PS) (l : Str) : (s.pushProc l).str = s.str := rfl
@[simp] theorem pushProc_pos (s : PS) (l : Str) : (s.pushProc l).pos = s.pos := rfl
@[simp] theorem pushProc_maxPos (s : PS) (l : Str) : (s.pushProc l).maxPos = s.maxPos := rfl
@[simp] theorem pushProc_errs (s : PS) (l : Str) : (s.pushProc l).errs = s.errs := rfl
@[simp] theorem pushProc_trail (s : PS) (l : Str) : (s.pushProc l).trail = s.trail := rfl
@[simp] theorem pushProc_lvl (s : PS) (l : Str) : (s.pushProc l).lvl = s.lvl := rfl
@[simp] theorem pushProc_linenum (s : PS) (l : Str) : (s.pushProc l).linenum = s.linenum := rfl
@[simp] theorem pushProc_expand (s : PS) (l : Str) : (s.pushProc l).expand = s.expand := rfl
@[simp] theorem pushProc_varStk (s : PS) (l : Str) : (s.pushProc l).varStk = s.varStk := rfl
@[simp] theorem pushProc_vars (s : PS) (l : Str) : (s.pushProc l).vars = s.vars := rfl
@[simp] theorem pushProc_labels (s : PS) (l : Str) : (s.pushProc l).labels = s.labels := rfl
@[simp] theorem pushProc_jumps (s : PS) (l : Str) : (s.pushProc l).jumps = s.jumps := rfl
@[simp] theorem pushProc_labelNum (s : PS) (l : Str) : (s.pushProc l).labelNum = s.labelNum := rfl
@[simp] theorem pushProc_lastLabel (s : PS) (l : Str) : (s.pushProc l).lastLabel = s.lastLabel := rfl
@[simp] theorem pushProc_curParams (s : PS) (l : Str) : (s.pushProc l).curParams = s.curParams := rfl
@[simp] theorem pushProc_lastVar (s : PS) (l : Str) : (s.pushProc l).lastVar = s.lastVar := rfl
@[simp] theorem emitBytes_str (d : List DCode) (s : PS) : (emitBytes d s).str = s.str := by
  induction d generalizing s with
  | nil => rfl
  | cons _ _ ih => simp [emitBytes, ih]
@[simp] theorem emitBytes_pos (d : List DCode) (s : PS) : (emitBytes d s).pos = s.pos := by
  induction d generalizing s with
  | nil => rfl
  | cons _ _ ih => simp [emitBytes, ih]
@[simp] theorem emitBytes_maxPos (d : List DCode) (s : PS) : (emitBytes d s).maxPos = s.maxPos := by
  induction d generalizing s with
  | nil => rfl
  | cons _ _ ih => simp [emitBytes, ih]
@[simp] theorem emitBytes_errs (d : List DCode) (s : PS) : (emitBytes d s).errs = s.errs := by
  induction d generalizing s with
  | nil => rfl
  | cons _ _ ih => simp [emitBytes, ih]
@[simp] theorem emitBytes_trail (d : List DCode) (s : PS) : (emitBytes d s).trail = s.trail := by
  induction d generalizing s with
  | nil => rfl
  | cons _ _ ih => simp [emitBytes, ih]
@[simp] theorem emitBytes_lvl (d : List DCode) (s : PS) : (emitBytes d s).lvl = s.lvl := by
  induction d generalizing s with
  | nil => rfl
  | cons _ _ ih => simp [emitBytes, ih]
@[simp] theorem emitBytes_linenum (d : List DCode) (s : PS) : (emitBytes d s).linenum = s.linenum := by
  induction d generalizing s with
  | nil => rfl
  | cons _ _ ih => simp [emitBytes, ih]
@[simp] theorem emitBytes_expand (d : List DCode) (s : PS) : (emitBytes d s).expand = s.expand := by
  induction d generalizing s with
  | nil => rfl
  | cons _ _ ih => simp [emitBytes, ih]
@[simp] theorem emitBytes_varStk (d : List DCode) (s : PS) : (emitBytes d s).varStk = s.varStk := by
  induction d generalizing s with
  | nil => rfl
  | cons _ _ ih => simp [emitBytes, ih]
@[simp] theorem emitBytes_procStack (d : List DCode) (s : PS) : (emitBytes d s).procStack = s.procStack := by
  induction d generalizing s with
  | nil => rfl
  | cons _ _ ih => simp [emitBytes, ih]
@[simp] theorem emitBytes_vars (d : List DCode) (s : PS) : (emitBytes d s).vars = s.vars := by
  induction d generalizing s with
  | nil => rfl
  | cons _ _ ih => simp [emitBytes, ih]
@[simp] theorem emitBytes_labels (d : List DCode) (s : PS) : (emitBytes d s).labels = s.labels := by
  induction d generalizing s with
  | nil => rfl
  | cons _ _ ih => simp [emitBytes, ih]
@[simp] theorem emitBytes_jumps (d : List DCode) (s : PS) : (emitBytes d s).jumps = s.jumps := by
  induction d generalizing s with
  | nil => rfl
  | cons _ _ ih => simp [emitBytes, ih]
@[simp] theorem emitBytes_labelNum (d : List DCode) (s : PS) : (emitBytes d s).labelNum = s.labelNum := by
  induction d generalizing s with
  | nil => rfl
  | cons _ _ ih => simp [emitBytes, ih]
@[simp] theorem emitBytes_lastLabel (d : List DCode) (s : PS) : (emitBytes d s).lastLabel = s.lastLabel := by
  induction d generalizing s with
  | nil => rfl
  | cons _ _ ih => simp [emitBytes, ih]
@[simp] theorem emitBytes_curParams (d : List DCode) (s : PS) : (emitBytes d s).curParams = s.curParams := by
  induction d generalizing s with
  | nil => rfl
  | cons _ _ ih => simp [emitBytes, ih]
@[simp] theorem emitBytes_lastVar (d : List DCode) (s : PS) : (emitBytes d s).lastVar = s.lastVar := by
  induction d generalizing s with
  | nil => rfl
  | cons _ _ ih => simp [emitBytes, ih]
@[simp] theorem matchLit_str (l : Str) (s : PS) : (matchLit l s).2.str = s.str := by
  induction l generalizing s with
  | nil => rfl
  | cons _ _ ih => simp only [matchLit]; (repeat' split) <;> simp [ih]
@[simp] theorem matchLit_lvl (l : Str) (s : PS) : (matchLit l s).2.lvl = s.lvl := by
  induction l generalizing s with
  | nil => rfl
  | cons _ _ ih => simp only [matchLit]; (repeat' split) <;> simp [ih]
@[simp] theorem matchLit_linenum (l : Str) (s : PS) : (matchLit l s).2.linenum = s.linenum := by
  induction l generalizing s with
  | nil => rfl
  | cons _ _ ih => simp only [matchLit]; (repeat' split) <;> simp [ih]
@[simp] theorem matchLit_expand (l : Str) (s : PS) : (matchLit l s).2.expand = s.expand := by
  induction l generalizing s with
  | nil => rfl
  | cons _ _ ih => simp only [matchLit]; (repeat' split) <;> simp [ih]
@[simp] theorem matchLit_varStk (l : Str) (s : PS) : (matchLit l s).2.varStk = s.varStk := by
  induction l generalizing s with
  | nil => rfl
  | cons _ _ ih => simp only [matchLit]; (repeat' split) <;> simp [ih]
@[simp] theorem matchLit_procs (l : Str) (s : PS) : (matchLit l s).2.procs = s.procs := by
  induction l generalizing s with
  | nil => rfl
  | cons _ _ ih => simp only [matchLit]; (repeat' split) <;> simp [ih]
@[simp] theorem matchLit_procStack (l : Str) (s : PS) : (matchLit l s).2.procStack = s.procStack := by
  induction l generalizing s with
  | nil => rfl
  | cons _ _ ih => simp only [matchLit]; (repeat' split) <;> simp [ih]
@[simp] theorem matchLit_vars (l : Str) (s : PS) : (matchLit l s).2.vars = s.vars := by
  induction l generalizing s with
  | nil => rfl
  | cons _ _ ih => simp only [matchLit]; (repeat' split) <;> simp [ih]
@[simp] theorem matchLit_labels (l : Str) (s : PS) : (matchLit l s).2.labels = s.labels := by
  induction l generalizing s with
  | nil => rfl
  | cons _ _ ih => simp only [matchLit]; (repeat' split) <;> simp [ih]
@[simp] theorem matchLit_jumps (l : Str) (s : PS) : (matchLit l s).2.jumps = s.jumps := by
  induction l generalizing s with
  | nil => rfl
  | cons _ _ ih => simp only [matchLit]; (repeat' split) <;> simp [ih]
@[simp] theorem matchLit_labelNum (l : Str) (s : PS) : (matchLit l s).2.labelNum = s.labelNum := by
  induction l generalizing s with
  | nil => rfl
  | cons _ _ ih => simp only [matchLit]; (repeat' split) <;> simp [ih]
@[simp] theorem matchLit_lastLabel (l : Str) (s : PS) : (matchLit l s).2.lastLabel = s.lastLabel := by
  induction l generalizing s with
  | nil => rfl
  | cons _ _ ih => simp only [matchLit]; (repeat' split) <;> simp [ih]
@[simp] theorem matchLit_curParams (l : Str) (s : PS) : (matchLit l s).2.curParams = s.curParams := by
  induction l generalizing s with
  | nil => rfl
  | cons _ _ ih => simp only [matchLit]; (repeat' split) <;> simp [ih]
@[simp] theorem matchLit_lastVar (l : Str) (s : PS) : (matchLit l s).2.lastVar = s.lastVar := by
  induction l generalizing s with
  | nil => rfl
  | cons _ _ ih => simp only [matchLit]; (repeat' split) <;> simp [ih]
@[simp] theorem addSLits_str (l : Str) (s : PS) : (addSLits l s).str = s.str := by
  induction l generalizing s with
  | nil => rfl
  | cons _ _ ih => simp only [addSLits]; (repeat' split) <;> simp [ih]
@[simp] theorem addSLits_pos (l : Str) (s : PS) : (addSLits l s).pos = s.pos := by
  induction l generalizing s with
  | nil => rfl
  | cons _ _ ih => simp only [addSLits]; (repeat' split) <;> simp [ih]
@[simp] theorem addSLits_maxPos (l : Str) (s : PS) : (addSLits l s).maxPos = s.maxPos := by
  induction l generalizing s with
  | nil => rfl
  | cons _ _ ih => simp only [addSLits]; (repeat' split) <;> simp [ih]
@[simp] theorem addSLits_errs (l : Str) (s : PS) : (addSLits l s).errs = s.errs := by
  induction l generalizing s with
  | nil => rfl
  | cons _ _ ih => simp only [addSLits]; (repeat' split) <;> simp [ih]
@[simp] theorem addSLits_trail (l : Str) (s : PS) : (addSLits l s).trail = s.trail := by
  induction l generalizing s with
  | nil => rfl
  | cons _ _ ih => simp only [addSLits]; (repeat' split) <;> simp [ih]
@[simp] theorem addSLits_lvl (l : Str) (s : PS) : (addSLits l s).lvl = s.lvl := by
  induction l generalizing s with
  | nil => rfl
  | cons _ _ ih => simp only [addSLits]; (repeat' split) <;> simp [ih]
@[simp] theorem addSLits_linenum (l : Str) (s : PS) : (addSLits l s).linenum = s.linenum := by
  induction l generalizing s with
  | nil => rfl
  | cons _ _ ih => simp only [addSLits]; (repeat' split) <;> simp [ih]
@[simp] theorem addSLits_varStk (l : Str) (s : PS) : (addSLits l s).varStk = s.varStk := by
  induction l generalizing s with
  | nil => rfl
  | cons _ _ ih => simp only [addSLits]; (repeat' split) <;> simp [ih]
@[simp] theorem addSLits_procs (l : Str) (s : PS) : (addSLits l s).procs = s.procs := by
  induction l generalizing s with
  | nil => rfl
  | cons _ _ ih => simp only [addSLits]; (repeat' split) <;> simp [ih]
@[simp] theorem addSLits_procStack (l : Str) (s : PS) : (addSLits l s).procStack = s.procStack := by
  induction l generalizing s with
  | nil => rfl
  | cons _ _ ih => simp only [addSLits]; (repeat' split) <;> simp [ih]
@[simp] theorem addSLits_vars (l : Str) (s : PS) : (addSLits l s).vars = s.vars := by
  induction l generalizing s with
  | nil => rfl
  | cons _ _ ih => simp only [addSLits]; (repeat' split) <;> simp [ih]
@[simp] theorem addSLits_labels (l : Str) (s : PS) : (addSLits l s).labels = s.labels := by
  induction l generalizing s with
  | nil => rfl
  | cons _ _ ih => simp only [addSLits]; (repeat' split) <;> simp [ih]
@[simp] theorem addSLits_jumps (l : Str) (s : PS) : (addSLits l s).jumps = s.jumps := by
  induction l generalizing s with
  | nil => rfl
  | cons _ _ ih => simp only [addSLits]; (repeat' split) <;> simp [ih]
@[simp] theorem addSLits_labelNum (l : Str) (s : PS) : (addSLits l s).labelNum = s.labelNum := by
  induction l generalizing s with
  | nil => rfl
  | cons _ _ ih => simp only [addSLits]; (repeat' split) <;> simp [ih]
@[simp] theorem addSLits_lastLabel (l : Str) (s : PS) : (addSLits l s).lastLabel = s.lastLabel := by
  induction l generalizing s with
  | nil => rfl
  | cons _ _ ih => simp only [addSLits]; (repeat' split) <;> simp [ih]
@[simp] theorem addSLits_curParams (l : Str) (s : PS) : (addSLits l s).curParams = s.curParams := by
  induction l generalizing s with
  | nil => rfl
  | cons _ _ ih => simp only [addSLits]; (repeat' split) <;> simp [ih]
@[simp] theorem addSLits_lastVar (l : Str) (s : PS) : (addSLits l s).lastVar = s.lastVar := by
  induction l generalizing s with
  | nil => rfl
  | cons _ _ ih => simp only [addSLits]; (repeat' split) <;> simp [ih]
@[simp] theorem listLit_str (l : Str) (s : PS) : (listLit l s).str = s.str := by
  simp only [listLit]; (repeat' split) <;> simp
@[simp] theorem listLit_pos (l : Str) (s : PS) : (listLit l s).pos = s.pos := by
  simp only [listLit]; (repeat' split) <;> simp
@[simp] theorem listLit_maxPos (l : Str) (s : PS) : (listLit l s).maxPos = s.maxPos := by
  simp only [listLit]; (repeat' split) <;> simp
@[simp] theorem listLit_errs (l : Str) (s : PS) : (listLit l s).errs = s.errs := by
  simp only [listLit]; (repeat' split) <;> simp
@[simp] theorem listLit_trail (l : Str) (s : PS) : (listLit l s).trail = s.trail := by
  simp only [listLit]; (repeat' split) <;> simp
@[simp] theorem listLit_lvl (l : Str) (s : PS) : (listLit l s).lvl = s.lvl := by
  simp only [listLit]; (repeat' split) <;> simp
@[simp] theorem listLit_linenum (l : Str) (s : PS) : (listLit l s).linenum = s.linenum := by
  simp only [listLit]; (repeat' split) <;> simp
@[simp] theorem listLit_varStk (l : Str) (s : PS) : (listLit l s).varStk = s.varStk := by
  simp only [listLit]; (repeat' split) <;> simp
@[simp] theorem listLit_procs (l : Str) (s : PS) : (listLit l s).procs = s.procs := by
  simp only [listLit]; (repeat' split) <;> simp
@[simp] theorem listLit_procStack (l : Str) (s : PS) : (listLit l s).procStack = s.procStack := by
  simp only [listLit]; (repeat' split) <;> simp
@[simp] theorem listLit_vars (l : Str) (s : PS) : (listLit l s).vars = s.vars := by
  simp only [listLit]; (repeat' split) <;> simp
@[simp] theorem listLit_labels (l : Str) (s : PS) : (listLit l s).labels = s.labels := by
  simp only [listLit]; (repeat' split) <;> simp
@[simp] theorem listLit_jumps (l : Str) (s : PS) : (listLit l s).jumps = s.jumps := by
  simp only [listLit]; (repeat' split) <;> simp
@[simp] theorem listLit_labelNum (l : Str) (s : PS) : (listLit l s).labelNum = s.labelNum := by
  simp only [listLit]; (repeat' split) <;> simp
@[simp] theorem listLit_lastLabel (l : Str) (s : PS) : (listLit l s).lastLabel = s.lastLabel := by
  simp only [listLit]; (repeat' split) <;> simp
@[simp] theorem listLit_curParams (l : Str) (s : PS) : (listLit l s).curParams = s.curParams := by
  simp only [listLit]; (repeat' split) <;> simp
@[simp] theorem listLit_lastVar (l : Str) (s : PS) : (listLit l s).lastVar = s.lastVar := by
  simp only [listLit]; (repeat' split) <;> simp
@[simp] theorem getDigits_str (v : Nat → Option Nat) (b : Nat) (s : PS) : (getDigits v b s).2.str = s.str := rfl
@[simp] theorem getDigits_maxPos (v : Nat → Option Nat) (b : Nat) (s : PS) : (getDigits v b s).2.maxPos = s.maxPos := rfl
@[simp] theorem getDigits_errs (v : Nat → Option Nat) (b : Nat) (s : PS) : (getDigits v b s).2.errs = s.errs := rfl
@[simp] theorem getDigits_trail (v : Nat → Option Nat) (b : Nat) (s : PS) : (getDigits v b s).2.trail = s.trail := rfl
@[simp] theorem getDigits_lvl (v : Nat → Option Nat) (b : Nat) (s : PS) : (getDigits v b s).2.lvl = s.lvl := rfl
@[simp] theorem getDigits_linenum (v : Nat → Option Nat) (b : Nat) (s : PS) : (getDigits v b s).2.linenum = s.linenum := rfl
@[simp] theorem getDigits_expand (v : Nat → Option Nat) (b : Nat) (s : PS) : (getDigits v b s).2.expand = s.expand := rfl
@[simp] theorem getDigits_varStk (v : Nat → Option Nat) (b : Nat) (s : PS) : (getDigits v b s).2.varStk = s.varStk := rfl
@[simp] theorem getDigits_procs (v : Nat → Option Nat) (b : Nat) (s : PS) : (getDigits v b s).2.procs = s.procs := rfl
@[simp] theorem getDigits_procStack (v : Nat → Option Nat) (b : Nat) (s : PS) : (getDigits v b s).2.procStack = s.procStack := rfl
@[simp] theorem getDigits_vars (v : Nat → Option Nat) (b : Nat) (s : PS) : (getDigits v b s).2.vars = s.vars := rfl
@[simp] theorem getDigits_labels (v : Nat → Option Nat) (b : Nat) (s : PS) : (getDigits v b s).2.labels = s.labels := rfl
@[simp] theorem getDigits_jumps (v : Nat → Option Nat) (b : Nat) (s : PS) : (getDigits v b s).2.jumps = s.jumps := rfl
@[simp] theorem getDigits_labelNum (v : Nat → Option Nat) (b : Nat) (s : PS) : (getDigits v b s).2.labelNum = s.labelNum := rfl
@[simp] theorem getDigits_lastLabel (v : Nat → Option Nat) (b : Nat) (s : PS) : (getDigits v b s).2.lastLabel = s.lastLabel := rfl
@[simp] theorem getDigits_curParams (v : Nat → Option Nat) (b : Nat) (s : PS) : (getDigits v b s).2.curParams = s.curParams := rfl
@[simp] theorem getDigits_lastVar (v : Nat → Option Nat) (b : Nat) (s : PS) : (getDigits v b s).2.lastVar = s.lastVar := rfl
@[simp] theorem getHex_str (s : PS) : (getHex s).2.str = s.str := rfl
@[simp] theorem getHex_maxPos (s : PS) : (getHex s).2.maxPos = s.maxPos := rfl
@[simp] theorem getHex_errs (s : PS) : (getHex s).2.errs = s.errs := rfl
@[simp] theorem getHex_trail (s : PS) : (getHex s).2.trail = s.trail := rfl
@[simp] theorem getHex_lvl (s : PS) : (getHex s).2.lvl = s.lvl := rfl
@[simp] theorem getHex_linenum (s : PS) : (getHex s).2.linenum = s.linenum := rfl
@[simp] theorem getHex_expand (s : PS) : (getHex s).2.expand = s.expand := rfl
@[simp] theorem getHex_varStk (s : PS) : (getHex s).2.varStk = s.varStk := rfl
@[simp] theorem getHex_procs (s : PS) : (getHex s).2.procs = s.procs := rfl
@[simp] theorem getHex_procStack (s : PS) : (getHex s).2.procStack = s.procStack := rfl
@[simp] theorem getHex_vars (s : PS) : (getHex s).2.vars = s.vars := rfl
@[simp] theorem getHex_labels (s : PS) : (getHex s).2.labels = s.labels := rfl
@[simp] theorem getHex_jumps (s : PS) : (getHex s).2.jumps = s.jumps := rfl
@[simp] theorem getHex_labelNum (s : PS) : (getHex s).2.labelNum = s.labelNum := rfl
@[simp] theorem getHex_lastLabel (s : PS) : (getHex s).2.lastLabel = s.lastLabel := rfl
@[simp] theorem getHex_curParams (s : PS) : (getHex s).2.curParams = s.curParams := rfl
@[simp] theorem getHex_lastVar (s : PS) : (getHex s).2.lastVar = s.lastVar := rfl
@[simp] theorem getDec_str (s : PS) : (getDec s).2.str = s.str := rfl
@[simp] theorem getDec_maxPos (s : PS) : (getDec s).2.maxPos = s.maxPos := rfl
@[simp] theorem getDec_errs (s : PS) : (getDec s).2.errs = s.errs := rfl
@[simp] theorem getDec_trail (s : PS) : (getDec s).2.trail = s.trail := rfl
@[simp] theorem getDec_lvl (s : PS) : (getDec s).2.lvl = s.lvl := rfl
@[simp] theorem getDec_linenum (s : PS) : (getDec s).2.linenum = s.linenum := rfl
@[simp] theorem getDec_expand (s : PS) : (getDec s).2.expand = s.expand := rfl
@[simp] theorem getDec_varStk (s : PS) : (getDec s).2.varStk = s.varStk := rfl
@[simp] theorem getDec_procs (s : PS) : (getDec s).2.procs = s.procs := rfl
@[simp] theorem getDec_procStack (s : PS) : (getDec s).2.procStack = s.procStack := rfl
@[simp] theorem getDec_vars (s : PS) : (getDec s).2.vars = s.vars := rfl
@[simp] theorem getDec_labels (s : PS) : (getDec s).2.labels = s.labels := rfl
@[simp] theorem getDec_jumps (s : PS) : (getDec s).2.jumps = s.jumps := rfl
@[simp] theorem getDec_labelNum (s : PS) : (getDec s).2.labelNum = s.labelNum := rfl
@[simp] theorem getDec_lastLabel (s : PS) : (getDec s).2.lastLabel = s.lastLabel := rfl
@[simp] theorem getDec_curParams (s : PS) : (getDec s).2.curParams = s.curParams := rfl
@[simp] theorem getDec_lastVar (s : PS) : (getDec s).2.lastVar = s.lastVar := rfl
@[simp] theorem getNumber_str (s : PS) : (getNumber s).2.str = s.str := by
  simp only [getNumber]; (repeat' split) <;> simp
@[simp] theorem getNumber_lvl (s : PS) : (getNumber s).2.lvl = s.lvl := by
  simp only [getNumber]; (repeat' split) <;> simp
@[simp] theorem getNumber_linenum (s : PS) : (getNumber s).2.linenum = s.linenum := by
  simp only [getNumber]; (repeat' split) <;> simp
@[simp] theorem getNumber_varStk (s : PS) : (getNumber s).2.varStk = s.varStk := by
  simp only [getNumber]; (repeat' split) <;> simp
@[simp] theorem getNumber_procs (s : PS) : (getNumber s).2.procs = s.procs := by
  simp only [getNumber]; (repeat' split) <;> simp
@[simp] theorem getNumber_procStack (s : PS) : (getNumber s).2.procStack = s.procStack := by
  simp only [getNumber]; (repeat' split) <;> simp
@[simp] theorem getNumber_vars (s : PS) : (getNumber s).2.vars = s.vars := by
  simp only [getNumber]; (repeat' split) <;> simp
@[simp] theorem getNumber_labels (s : PS) : (getNumber s).2.labels = s.labels := by
  simp only [getNumber]; (repeat' split) <;> simp
@[simp] theorem getNumber_jumps (s : PS) : (getNumber s).2.jumps = s.jumps := by
  simp only [getNumber]; (repeat' split) <;> simp
@[simp] theorem getNumber_labelNum (s : PS) : (getNumber s).2.labelNum = s.labelNum := by
  simp only [getNumber]; (repeat' split) <;> simp
@[simp] theorem getNumber_lastLabel (s : PS) : (getNumber s).2.lastLabel = s.lastLabel := by
  simp only [getNumber]; (repeat' split) <;> simp
@[simp] theorem getNumber_curParams (s : PS) : (getNumber s).2.curParams = s.curParams := by
  simp only [getNumber]; (repeat' split) <;> simp
@[simp] theorem getNumber_lastVar (s : PS) : (getNumber s).2.lastVar = s.lastVar := by
  simp only [getNumber]; (repeat' split) <;> simp
@[simp] theorem getAsmWord_str (s : PS) : (getAsmWord s).2.str = s.str := by
  simp only [getAsmWord]; (repeat' split) <;> simp
@[simp] theorem getAsmWord_lvl (s : PS) : (getAsmWord s).2.lvl = s.lvl := by
  simp only [getAsmWord]; (repeat' split) <;> simp
@[simp] theorem getAsmWord_linenum (s : PS) : (getAsmWord s).2.linenum = s.linenum := by
  simp only [getAsmWord]; (repeat' split) <;> simp
@[simp] theorem getAsmWord_varStk (s : PS) : (getAsmWord s).2.varStk = s.varStk := by
  simp only [getAsmWord]; (repeat' split) <;> simp
@[simp] theorem getAsmWord_procStack (s : PS) : (getAsmWord s).2.procStack = s.procStack := by
  simp only [getAsmWord]; (repeat' split) <;> simp
@[simp] theorem getAsmWord_vars (s : PS) : (getAsmWord s).2.vars = s.vars := by
  simp only [getAsmWord]; (repeat' split) <;> simp
@[simp] theorem getAsmWord_labels (s : PS) : (getAsmWord s).2.labels = s.labels := by
  simp only [getAsmWord]; (repeat' split) <;> simp
@[simp] theorem getAsmWord_jumps (s : PS) : (getAsmWord s).2.jumps = s.jumps := by
  simp only [getAsmWord]; (repeat' split) <;> simp
@[simp] theorem getAsmWord_labelNum (s : PS) : (getAsmWord s).2.labelNum = s.labelNum := by
  simp only [getAsmWord]; (repeat' split) <;> simp
@[simp] theorem getAsmWord_lastLabel (s : PS) : (getAsmWord s).2.lastLabel = s.lastLabel := by
  simp only [getAsmWord]; (repeat' split) <;> simp
@[simp] theorem getAsmWord_curParams (s : PS) : (getAsmWord s).2.curParams = s.curParams := by
  simp only [getAsmWord]; (repeat' split) <;> simp
@[simp] theorem getAsmWord_lastVar (s : PS) : (getAsmWord s).2.lastVar = s.lastVar := by
  simp only [getAsmWord]; (repeat' split) <;> simp
@[simp] theorem getAsmByte_str (s : PS) : (getAsmByte s).2.str = s.str := by
  simp only [getAsmByte]; (repeat' split) <;> simp
@[simp] theorem getAsmByte_lvl (s : PS) : (getAsmByte s).2.lvl = s.lvl := by
  simp only [getAsmByte]; (repeat' split) <;> simp
@[simp] theorem getAsmByte_linenum (s : PS) : (getAsmByte s).2.linenum = s.linenum := by
  simp only [getAsmByte]; (repeat' split) <;> simp
@[simp] theorem getAsmByte_varStk (s : PS) : (getAsmByte s).2.varStk = s.varStk := by
  simp only [getAsmByte]; (repeat' split) <;> simp
@[simp] theorem getAsmByte_procStack (s : PS) : (getAsmByte s).2.procStack = s.procStack := by
  simp only [getAsmByte]; (repeat' split) <;> simp
@[simp] theorem getAsmByte_vars (s : PS) : (getAsmByte s).2.vars = s.vars := by
  simp only [getAsmByte]; (repeat' split) <;> simp
@[simp] theorem getAsmByte_labels (s : PS) : (getAsmByte s).2.labels = s.labels := by
  simp only [getAsmByte]; (repeat' split) <;> simp
@[simp] theorem getAsmByte_jumps (s : PS) : (getAsmByte s).2.jumps = s.jumps := by
  simp only [getAsmByte]; (repeat' split) <;> simp
@[simp] theorem getAsmByte_labelNum (s : PS) : (getAsmByte s).2.labelNum = s.labelNum := by
  simp only [getAsmByte]; (repeat' split) <;> simp
@[simp] theorem getAsmByte_lastLabel (s : PS) : (getAsmByte s).2.lastLabel = s.lastLabel := by
  simp only [getAsmByte]; (repeat' split) <;> simp
@[simp] theorem getAsmByte_curParams (s : PS) : (getAsmByte s).2.curParams = s.curParams := by
  simp only [getAsmByte]; (repeat' split) <;> simp
@[simp] theorem getAsmByte_lastVar (s : PS) : (getAsmByte s).2.lastVar = s.lastVar := by
  simp only [getAsmByte]; (repeat' split) <;> simp
@[simp] theorem hexLoop_str (n : Nat) (s : PS) (t : Str) : (hexLoop n s t).2.str = s.str := by
  induction n generalizing s t with
  | zero => rfl
  | succ _ ih => simp only [hexLoop]; (repeat' split) <;> simp [ih]
@[simp] theorem hexLoop_lvl (n : Nat) (s : PS) (t : Str) : (hexLoop n s t).2.lvl = s.lvl := by
  induction n generalizing s t with
  | zero => rfl
  | succ _ ih => simp only [hexLoop]; (repeat' split) <;> simp [ih]
@[simp] theorem hexLoop_linenum (n : Nat) (s : PS) (t : Str) : (hexLoop n s t).2.linenum = s.linenum := by
  induction n generalizing s t with
  | zero => rfl
  | succ _ ih => simp only [hexLoop]; (repeat' split) <;> simp [ih]
@[simp] theorem hexLoop_expand (n : Nat) (s : PS) (t : Str) : (hexLoop n s t).2.expand = s.expand := by
  induction n generalizing s t with
  | zero => rfl
  | succ _ ih => simp only [hexLoop]; (repeat' split) <;> simp [ih]
@[simp] theorem hexLoop_varStk (n : Nat) (s : PS) (t : Str) : (hexLoop n s t).2.varStk = s.varStk := by
  induction n generalizing s t with
  | zero => rfl
  | succ _ ih => simp only [hexLoop]; (repeat' split) <;> simp [ih]
@[simp] theorem hexLoop_procs (n : Nat) (s : PS) (t : Str) : (hexLoop n s t).2.procs = s.procs := by
  induction n generalizing s t with
  | zero => rfl
  | succ _ ih => simp only [hexLoop]; (repeat' split) <;> simp [ih]
@[simp] theorem hexLoop_procStack (n : Nat) (s : PS) (t : Str) : (hexLoop n s t).2.procStack = s.procStack := by
  induction n generalizing s t with
  | zero => rfl
  | succ _ ih => simp only [hexLoop]; (repeat' split) <;> simp [ih]
@[simp] theorem hexLoop_vars (n : Nat) (s : PS) (t : Str) : (hexLoop n s t).2.vars = s.vars := by
  induction n generalizing s t with
  | zero => rfl
  | succ _ ih => simp only [hexLoop]; (repeat' split) <;> simp [ih]
@[simp] theorem hexLoop_labels (n : Nat) (s : PS) (t : Str) : (hexLoop n s t).2.labels = s.labels := by
  induction n generalizing s t with
  | zero => rfl
  | succ _ ih => simp only [hexLoop]; (repeat' split) <;> simp [ih]
@[simp] theorem hexLoop_jumps (n : Nat) (s : PS) (t : Str) : (hexLoop n s t).2.jumps = s.jumps := by
  induction n generalizing s t with
  | zero => rfl
  | succ _ ih => simp only [hexLoop]; (repeat' split) <;> simp [ih]
@[simp] theorem hexLoop_labelNum (n : Nat) (s : PS) (t : Str) : (hexLoop n s t).2.labelNum = s.labelNum := by
  induction n generalizing s t with
  | zero => rfl
  | succ _ ih => simp only [hexLoop]; (repeat' split) <;> simp [ih]
@[simp] theorem hexLoop_lastLabel (n : Nat) (s : PS) (t : Str) : (hexLoop n s t).2.lastLabel = s.lastLabel := by
  induction n generalizing s t with
  | zero => rfl
  | succ _ ih => simp only [hexLoop]; (repeat' split) <;> simp [ih]
@[simp] theorem hexLoop_curParams (n : Nat) (s : PS) (t : Str) : (hexLoop n s t).2.curParams = s.curParams := by
  induction n generalizing s t with
  | zero => rfl
  | succ _ ih => simp only [hexLoop]; (repeat' split) <;> simp [ih]
@[simp] theorem hexLoop_lastVar (n : Nat) (s : PS) (t : Str) : (hexLoop n s t).2.lastVar = s.lastVar := by
  induction n generalizing s t with
  | zero => rfl
  | succ _ ih => simp only [hexLoop]; (repeat' split) <;> simp [ih]
@[simp] theorem constLoop_str (n : Nat) (s : PS) (t : Str) : (constLoop n s t).2.str = s.str := by
  induction n generalizing s t with
  | zero => rfl
  | succ _ ih => simp only [constLoop]; (repeat' split) <;> simp [ih]
@[simp] theorem constLoop_lvl (n : Nat) (s : PS) (t : Str) : (constLoop n s t).2.lvl = s.lvl := by
  induction n generalizing s t with
  | zero => rfl
  | succ _ ih => simp only [constLoop]; (repeat' split) <;> simp [ih]
@[simp] theorem constLoop_linenum (n : Nat) (s : PS) (t : Str) : (constLoop n s t).2.linenum = s.linenum := by
  induction n generalizing s t with
  | zero => rfl
  | succ _ ih => simp only [constLoop]; (repeat' split) <;> simp [ih]
@[simp] theorem constLoop_expand (n : Nat) (s : PS) (t : Str) : (constLoop n s t).2.expand = s.expand := by
  induction n generalizing s t with
  | zero => rfl
  | succ _ ih => simp only [constLoop]; (repeat' split) <;> simp [ih]
@[simp] theorem constLoop_varStk (n : Nat) (s : PS) (t : Str) : (constLoop n s t).2.varStk = s.varStk := by
  induction n generalizing s t with
  | zero => rfl
  | succ _ ih => simp only [constLoop]; (repeat' split) <;> simp [ih]
@[simp] theorem constLoop_procs (n : Nat) (s : PS) (t : Str) : (constLoop n s t).2.procs = s.procs := by
  induction n generalizing s t with
  | zero => rfl
  | succ _ ih => simp only [constLoop]; (repeat' split) <;> simp [ih]
@[simp] theorem constLoop_procStack (n : Nat) (s : PS) (t : Str) : (constLoop n s t).2.procStack = s.procStack := by
  induction n generalizing s t with
  | zero => rfl
  | succ _ ih => simp only [constLoop]; (repeat' split) <;> simp [ih]
@[simp] theorem constLoop_vars (n : Nat) (s : PS) (t : Str) : (constLoop n s t).2.vars = s.vars := by
  induction n generalizing s t with
  | zero => rfl
  | succ _ ih => simp only [constLoop]; (repeat' split) <;> simp [ih]
@[simp] theorem constLoop_labels (n : Nat) (s : PS) (t : Str) : (constLoop n s t).2.labels = s.labels := by
  induction n generalizing s t with
  | zero => rfl
  | succ _ ih => simp only [constLoop]; (repeat' split) <;> simp [ih]
@[simp] theorem constLoop_jumps (n : Nat) (s : PS) (t : Str) : (constLoop n s t).2.jumps = s.jumps := by
  induction n generalizing s t with
  | zero => rfl
  | succ _ ih => simp only [constLoop]; (repeat' split) <;> simp [ih]
@[simp] theorem constLoop_labelNum (n : Nat) (s : PS) (t : Str) : (constLoop n s t).2.labelNum = s.labelNum := by
  induction n generalizing s t with
  | zero => rfl
  | succ _ ih => simp only [constLoop]; (repeat' split) <;> simp [ih]
@[simp] theorem constLoop_lastLabel (n : Nat) (s : PS) (t : Str) : (constLoop n s t).2.lastLabel = s.lastLabel := by
  induction n generalizing s t with
  | zero => rfl
  | succ _ ih => simp only [constLoop]; (repeat' split) <;> simp [ih]
@[simp] theorem constLoop_curParams (n : Nat) (s : PS) (t : Str) : (constLoop n s t).2.curParams = s.curParams := by
  induction n generalizing s t with
  | zero => rfl
  | succ _ ih => simp only [constLoop]; (repeat' split) <;> simp [ih]
@[simp] theorem constLoop_lastVar (n : Nat) (s : PS) (t : Str) : (constLoop n s t).2.lastVar = s.lastVar := by
  induction n generalizing s t with
  | zero => rfl
  | succ _ ih => simp only [constLoop]; (repeat' split) <;> simp [ih]
@[simp] theorem getConstString_str (s : PS) : (getConstString s).2.str = s.str := by
  simp only [getConstString]; (repeat' split) <;> simp
@[simp] theorem getConstString_lvl (s : PS) : (getConstString s).2.lvl = s.lvl := by
  simp only [getConstString]; (repeat' split) <;> simp
@[simp] theorem getConstString_linenum (s : PS) : (getConstString s).2.linenum = s.linenum := by
  simp only [getConstString]; (repeat' split) <;> simp
@[simp] theorem getConstString_varStk (s : PS) : (getConstString s).2.varStk = s.varStk := by
  simp only [getConstString]; (repeat' split) <;> simp
@[simp] theorem getConstString_procs (s : PS) : (getConstString s).2.procs = s.procs := by
  simp only [getConstString]; (repeat' split) <;> simp
@[simp] theorem getConstString_procStack (s : PS) : (getConstString s).2.procStack = s.procStack := by
  simp only [getConstString]; (repeat' split) <;> simp
@[simp] theorem getConstString_vars (s : PS) : (getConstString s).2.vars = s.vars := by
  simp only [getConstString]; (repeat' split) <;> simp
@[simp] theorem getConstString_labels (s : PS) : (getConstString s).2.labels = s.labels := by
  simp only [getConstString]; (repeat' split) <;> simp
@[simp] theorem getConstString_jumps (s : PS) : (getConstString s).2.jumps = s.jumps := by
  simp only [getConstString]; (repeat' split) <;> simp
@[simp] theorem getConstString_labelNum (s : PS) : (getConstString s).2.labelNum = s.labelNum := by
  simp only [getConstString]; (repeat' split) <;> simp
@[simp] theorem getConstString_lastLabel (s : PS) : (getConstString s).2.lastLabel = s.lastLabel := by
  simp only [getConstString]; (repeat' split) <;> simp
@[simp] theorem getConstString_curParams (s : PS) : (getConstString s).2.curParams = s.curParams := by
  simp only [getConstString]; (repeat' split) <;> simp
@[simp] theorem getConstString_lastVar (s : PS) : (getConstString s).2.lastVar = s.lastVar := by
  simp only [getConstString]; (repeat' split) <;> simp
@[simp] theorem popElifs_str (n : Nat) (s : PS) : (popElifs n s).str = s.str := by
  induction n generalizing s with
  | zero => rfl
  | succ _ ih => simp only [popElifs]; (repeat' split) <;> simp [ih]
@[simp] theorem popElifs_pos (n : Nat) (s : PS) : (popElifs n s).pos = s.pos := by
  induction n generalizing s with
  | zero => rfl
  | succ _ ih => simp only [popElifs]; (repeat' split) <;> simp [ih]
@[simp] theorem popElifs_lvl (n : Nat) (s : PS) : (popElifs n s).lvl = s.lvl := by
  induction n generalizing s with
  | zero => rfl
  | succ _ ih => simp only [popElifs]; (repeat' split) <;> simp [ih]
@[simp] theorem popElifs_linenum (n : Nat) (s : PS) : (popElifs n s).linenum = s.linenum := by
  induction n generalizing s with
  | zero => rfl
  | succ _ ih => simp only [popElifs]; (repeat' split) <;> simp [ih]
@[simp] theorem popElifs_varStk (n : Nat) (s : PS) : (popElifs n s).varStk = s.varStk := by
  induction n generalizing s with
  | zero => rfl
  | succ _ ih => simp only [popElifs]; (repeat' split) <;> simp [ih]
@[simp] theorem popElifs_procStack (n : Nat) (s : PS) : (popElifs n s).procStack = s.procStack := by
  induction n generalizing s with
  | zero => rfl
  | succ _ ih => simp only [popElifs]; (repeat' split) <;> simp [ih]
@[simp] theorem popElifs_vars (n : Nat) (s : PS) : (popElifs n s).vars = s.vars := by
  induction n generalizing s with
  | zero => rfl
  | succ _ ih => simp only [popElifs]; (repeat' split) <;> simp [ih]
@[simp] theorem popElifs_labels (n : Nat) (s : PS) : (popElifs n s).labels = s.labels := by
  induction n generalizing s with
  | zero => rfl
  | succ _ ih => simp only [popElifs]; (repeat' split) <;> simp [ih]
@[simp] theorem popElifs_labelNum (n : Nat) (s : PS) : (popElifs n s).labelNum = s.labelNum := by
  induction n generalizing s with
  | zero => rfl
  | succ _ ih => simp only [popElifs]; (repeat' split) <;> simp [ih]
@[simp] theorem popElifs_lastLabel (n : Nat) (s : PS) : (popElifs n s).lastLabel = s.lastLabel := by
  induction n generalizing s with
  | zero => rfl
  | succ _ ih => simp only [popElifs]; (repeat' split) <;> simp [ih]
@[simp] theorem popElifs_curParams (n : Nat) (s : PS) : (popElifs n s).curParams = s.curParams := by
  induction n generalizing s with
  | zero => rfl
  | succ _ ih => simp only [popElifs]; (repeat' split) <;> simp [ih]
@[simp] theorem popElifs_lastVar (n : Nat) (s : PS) : (popElifs n s).lastVar = s.lastVar := by
  induction n generalizing s with
  | zero => rfl
  | succ _ ih => simp only [popElifs]; (repeat' split) <;> simp [ih]
@[simp] theorem emitVarn_str (s : PS) (n : Str) : (emitVarn s n).str = s.str := rfl
@[simp] theorem emitVarn_pos (s : PS) (n : Str) : (emitVarn s n).pos = s.pos := rfl
@[simp] theorem emitVarn_maxPos (s : PS) (n : Str) : (emitVarn s n).maxPos = s.maxPos := rfl
@[simp] theorem emitVarn_errs (s : PS) (n : Str) : (emitVarn s n).errs = s.errs := rfl
@[simp] theorem emitVarn_trail (s : PS) (n : Str) : (emitVarn s n).trail = s.trail := rfl
@[simp] theorem emitVarn_lvl (s : PS) (n : Str) : (emitVarn s n).lvl = s.lvl := rfl
@[simp] theorem emitVarn_linenum (s : PS) (n : Str) : (emitVarn s n).linenum = s.linenum := rfl
@[simp] theorem emitVarn_expand (s : PS) (n : Str) : (emitVarn s n).expand = s.expand := rfl
@[simp] theorem emitVarn_varStk (s : PS) (n : Str) : (emitVarn s n).varStk = s.varStk := rfl
@[simp] theorem emitVarn_procStack (s : PS) (n : Str) : (emitVarn s n).procStack = s.procStack := rfl
@[simp] theorem emitVarn_vars (s : PS) (n : Str) : (emitVarn s n).vars = s.vars := rfl
@[simp] theorem emitVarn_labels (s : PS) (n : Str) : (emitVarn s n).labels = s.labels := rfl
@[simp] theorem emitVarn_jumps (s : PS) (n : Str) : (emitVarn s n).jumps = s.jumps := rfl
@[simp] theorem emitVarn_labelNum (s : PS) (n : Str) : (emitVarn s n).labelNum = s.labelNum := rfl
@[simp] theorem emitVarn_lastLabel (s : PS) (n : Str) : (emitVarn s n).lastLabel = s.lastLabel := rfl
@[simp] theorem emitVarn_curParams (s : PS) (n : Str) : (emitVarn s n).curParams = s.curParams := rfl
@[simp] theorem emitVarn_lastVar (s : PS) (n : Str) : (emitVarn s n).lastVar = s.lastVar := rfl
@[simp] theorem setLabel_str (s : PS) (n : Str) (l : LabelT) : (setLabel s n l).str = s.str := rfl
@[simp] theorem setLabel_pos (s : PS) (n : Str) (l : LabelT) : (setLabel s n l).pos = s.pos := rfl
@[simp] theorem setLabel_maxPos (s : PS) (n : Str) (l : LabelT) : (setLabel s n l).maxPos = s.maxPos := rfl
@[simp] theorem setLabel_errs (s : PS) (n : Str) (l : LabelT) : (setLabel s n l).errs = s.errs := rfl
@[simp] theorem setLabel_trail (s : PS) (n : Str) (l : LabelT) : (setLabel s n l).trail = s.trail := rfl
@[simp] theorem setLabel_lvl (s : PS) (n : Str) (l : LabelT) : (setLabel s n l).lvl = s.lvl := rfl
@[simp] theorem setLabel_linenum (s : PS) (n : Str) (l : LabelT) : (setLabel s n l).linenum = s.linenum := rfl
@[simp] theorem setLabel_expand (s : PS) (n : Str) (l : LabelT) : (setLabel s n l).expand = s.expand := rfl
@[simp] theorem setLabel_varStk (s : PS) (n : Str) (l : LabelT) : (setLabel s n l).varStk = s.varStk := rfl
@[simp] theorem setLabel_procs (s : PS) (n : Str) (l : LabelT) : (setLabel s n l).procs = s.procs := rfl
@[simp] theorem setLabel_procStack (s : PS) (n : Str) (l : LabelT) : (setLabel s n l).procStack = s.procStack := rfl
@[simp] theorem setLabel_vars (s : PS) (n : Str) (l : LabelT) : (setLabel s n l).vars = s.vars := rfl
@[simp] theorem setLabel_jumps (s : PS) (n : Str) (l : LabelT) : (setLabel s n l).jumps = s.jumps := rfl
@[simp] theorem setLabel_labelNum (s : PS) (n : Str) (l : LabelT) : (setLabel s n l).labelNum = s.labelNum := rfl
@[simp] theorem setLabel_lastLabel (s : PS) (n : Str) (l : LabelT) : (setLabel s n l).lastLabel = s.lastLabel := rfl
@[simp] theorem setLabel_curParams (s : PS) (n : Str) (l : LabelT) : (setLabel s n l).curParams = s.curParams := rfl
@[simp] theorem setLabel_lastVar (s : PS) (n : Str) (l : LabelT) : (setLabel s n l).lastVar = s.lastVar := rfl
@[simp] theorem parseFpExp_str (s : PS) : (parseFpExp s).2.str = s.str := by
  simp only [parseFpExp]; (repeat' split) <;> simp
@[simp] theorem parseFpExp_lvl (s : PS) : (parseFpExp s).2.lvl = s.lvl := by
  simp only [parseFpExp]; (repeat' split) <;> simp
@[simp] theorem parseFpExp_linenum (s : PS) : (parseFpExp s).2.linenum = s.linenum := by
  simp only [parseFpExp]; (repeat' split) <;> simp
@[simp] theorem parseFpExp_varStk (s : PS) : (parseFpExp s).2.varStk = s.varStk := by
  simp only [parseFpExp]; (repeat' split) <;> simp
@[simp] theorem parseFpExp_procStack (s : PS) : (parseFpExp s).2.procStack = s.procStack := by
  simp only [parseFpExp]; (repeat' split) <;> simp
@[simp] theorem parseFpExp_vars (s : PS) : (parseFpExp s).2.vars = s.vars := by
  simp only [parseFpExp]; (repeat' split) <;> simp
@[simp] theorem parseFpExp_labels (s : PS) : (parseFpExp s).2.labels = s.labels := by
  simp only [parseFpExp]; (repeat' split) <;> simp
@[simp] theorem parseFpExp_jumps (s : PS) : (parseFpExp s).2.jumps = s.jumps := by
  simp only [parseFpExp]; (repeat' split) <;> simp
@[simp] theorem parseFpExp_labelNum (s : PS) : (parseFpExp s).2.labelNum = s.labelNum := by
  simp only [parseFpExp]; (repeat' split) <;> simp
@[simp] theorem parseFpExp_lastLabel (s : PS) : (parseFpExp s).2.lastLabel = s.lastLabel := by
  simp only [parseFpExp]; (repeat' split) <;> simp
@[simp] theorem parseFpExp_curParams (s : PS) : (parseFpExp s).2.curParams = s.curParams := by
  simp only [parseFpExp]; (repeat' split) <;> simp
@[simp] theorem parseFpExp_lastVar (s : PS) : (parseFpExp s).2.lastVar = s.lastVar := by
  simp only [parseFpExp]; (repeat' split) <;> simp
@[simp] theorem emitData_str (l : List Nat) (s : PS) : (emitData l s).str = s.str := by
  induction l generalizing s with
  | nil => rfl
  | cons _ _ ih => simp [emitData, ih]
@[simp] theorem emitData_pos (l : List Nat) (s : PS) : (emitData l s).pos = s.pos := by
  induction l generalizing s with
  | nil => rfl
  | cons _ _ ih => simp [emitData, ih]
@[simp] theorem emitData_maxPos (l : List Nat) (s : PS) : (emitData l s).maxPos = s.maxPos := by
  induction l generalizing s with
  | nil => rfl
  | cons _ _ ih => simp [emitData, ih]
@[simp] theorem emitData_errs (l : List Nat) (s : PS) : (emitData l s).errs = s.errs := by
  induction l generalizing s with
  | nil => rfl
  | cons _ _ ih => simp [emitData, ih]
@[simp] theorem emitData_trail (l : List Nat) (s : PS) : (emitData l s).trail = s.trail := by
  induction l generalizing s with
  | nil => rfl
  | cons _ _ ih => simp [emitData, ih]
@[simp] theorem emitData_lvl (l : List Nat) (s : PS) : (emitData l s).lvl = s.lvl := by
  induction l generalizing s with
  | nil => rfl
  | cons _ _ ih => simp [emitData, ih]
@[simp] theorem emitData_linenum (l : List Nat) (s : PS) : (emitData l s).linenum = s.linenum := by
  induction l generalizing s with
  | nil => rfl
  | cons _ _ ih => simp [emitData, ih]
@[simp] theorem emitData_expand (l : List Nat) (s : PS) : (emitData l s).expand = s.expand := by
  induction l generalizing s with
  | nil => rfl
  | cons _ _ ih => simp [emitData, ih]
@[simp] theorem emitData_varStk (l : List Nat) (s : PS) : (emitData l s).varStk = s.varStk := by
  induction l generalizing s with
  | nil => rfl
  | cons _ _ ih => simp [emitData, ih]
@[simp] theorem emitData_procStack (l : List Nat) (s : PS) : (emitData l s).procStack = s.procStack := by
  induction l generalizing s with
  | nil => rfl
  | cons _ _ ih => simp [emitData, ih]
@[simp] theorem emitData_vars (l : List Nat) (s : PS) : (emitData l s).vars = s.vars := by
  induction l generalizing s with
  | nil => rfl
  | cons _ _ ih => simp [emitData, ih]
@[simp] theorem emitData_labels (l : List Nat) (s : PS) : (emitData l s).labels = s.labels := by
  induction l generalizing s with
  | nil => rfl
  | cons _ _ ih => simp [emitData, ih]
@[simp] theorem emitData_jumps (l : List Nat) (s : PS) : (emitData l s).jumps = s.jumps := by
  induction l generalizing s with
  | nil => rfl
  | cons _ _ ih => simp [emitData, ih]
@[simp] theorem emitData_labelNum (l : List Nat) (s : PS) : (emitData l s).labelNum = s.labelNum := by
  induction l generalizing s with
  | nil => rfl
  | cons _ _ ih => simp [emitData, ih]
@[simp] theorem emitData_lastLabel (l : List Nat) (s : PS) : (emitData l s).lastLabel = s.lastLabel := by
  induction l generalizing s with
  | nil => rfl
  | cons _ _ ih => simp [emitData, ih]
@[simp] theorem emitData_curParams (l : List Nat) (s : PS) : (emitData l s).curParams = s.curParams := by
  induction l generalizing s with
  | nil => rfl
  | cons _ _ ih => simp [emitData, ih]
@[simp] theorem emitData_lastVar (l : List Nat) (s : PS) : (emitData l s).lastVar = s.lastVar := by
  induction l generalizing s with
  | nil => rfl
  | cons _ _ ih => simp [emitData, ih]
theorem removeLast_str {s s' : PS} {c : CW} (h : s.removeLast = some (c, s')) : s'.str = s.str := by
  unfold PS.removeLast at h; split at h <;> simp at h; rw [← h.2]; rfl
theorem removeLast_pos {s s' : PS} {c : CW} (h : s.removeLast = some (c, s')) : s'.pos = s.pos := by
  unfold PS.removeLast at h; split at h <;> simp at h; rw [← h.2]; rfl
theorem removeLast_maxPos {s s' : PS} {c : CW} (h : s.removeLast = some (c, s')) : s'.maxPos = s.maxPos := by
  unfold PS.removeLast at h; split at h <;> simp at h; rw [← h.2]; rfl
theorem removeLast_errs {s s' : PS} {c : CW} (h : s.removeLast = some (c, s')) : s'.errs = s.errs := by
  unfold PS.removeLast at h; split at h <;> simp at h; rw [← h.2]; rfl
theorem removeLast_trail {s s' : PS} {c : CW} (h : s.removeLast = some (c, s')) : s'.trail = s.trail := by
  unfold PS.removeLast at h; split at h <;> simp at h; rw [← h.2]; rfl
theorem removeLast_lvl {s s' : PS} {c : CW} (h : s.removeLast = some (c, s')) : s'.lvl = s.lvl := by
  unfold PS.removeLast at h; split at h <;> simp at h; rw [← h.2]; rfl
theorem removeLast_linenum {s s' : PS} {c : CW} (h : s.removeLast = some (c, s')) : s'.linenum = s.linenum := by
  unfold PS.removeLast at h; split at h <;> simp at h; rw [← h.2]; rfl
theorem removeLast_expand {s s' : PS} {c : CW} (h : s.removeLast = some (c, s')) : s'.expand = s.expand := by
  unfold PS.removeLast at h; split at h <;> simp at h; rw [← h.2]; rfl
theorem removeLast_varStk {s s' : PS} {c : CW} (h : s.removeLast = some (c, s')) : s'.varStk = s.varStk := by
  unfold PS.removeLast at h; split at h <;> simp at h; rw [← h.2]; rfl
theorem removeLast_procStack {s s' : PS} {c : CW} (h : s.removeLast = some (c, s')) : s'.procStack = s.procStack := by
  unfold PS.removeLast at h; split at h <;> simp at h; rw [← h.2]; rfl
theorem removeLast_vars {s s' : PS} {c : CW} (h : s.removeLast = some (c, s')) : s'.vars = s.vars := by
  unfold PS.removeLast at h; split at h <;> simp at h; rw [← h.2]; rfl
theorem removeLast_labels {s s' : PS} {c : CW} (h : s.removeLast = some (c, s')) : s'.labels = s.labels := by
  unfold PS.removeLast at h; split at h <;> simp at h; rw [← h.2]; rfl
theorem removeLast_jumps {s s' : PS} {c : CW} (h : s.removeLast = some (c, s')) : s'.jumps = s.jumps := by
  unfold PS.removeLast at h; split at h <;> simp at h; rw [← h.2]; rfl
theorem removeLast_labelNum {s s' : PS} {c : CW} (h : s.removeLast = some (c, s')) : s'.labelNum = s.labelNum := by
  unfold PS.removeLast at h; split at h <;> simp at h; rw [← h.2]; rfl
theorem removeLast_lastLabel {s s' : PS} {c : CW} (h : s.removeLast = some (c, s')) : s'.lastLabel = s.lastLabel := by
  unfold PS.removeLast at h; split at h <;> simp at h; rw [← h.2]; rfl
theorem removeLast_curParams {s s' : PS} {c : CW} (h : s.removeLast = some (c, s')) : s'.curParams = s.curParams := by
  unfold PS.removeLast at h; split at h <;> simp at h; rw [← h.2]; rfl
theorem removeLast_lastVar {s s' : PS} {c : CW} (h : s.removeLast = some (c, s')) : s'.lastVar = s.lastVar := by
  unfold PS.removeLast at h; split at h <;> simp at h; rw [← h.2]; rfl

end FB.Parse.Frame
