"""Transcribes /repo/dg1d/rk_coeffs.py (as text) into lean/Verif/Model/RkCoeffs.lean.

Every literal is copied digit by digit; entries of `betas` that the source never
assigns are the zeros of np.zeros."""
import ast
src = open('/repo/dg1d/rk_coeffs.py').read()


def lean(node):
    if isinstance(node, ast.BinOp):
        op = {ast.Add: '+', ast.Sub: '-', ast.Mult: '*', ast.Div: '/'}[type(node.op)]
        def par(n):
            s = lean(n)
            return '(' + s + ')' if isinstance(n, ast.BinOp) and type(n.op) in (ast.Add, ast.Sub) and op in '*/' else s
        return par(node.left) + ' ' + op + ' ' + par(node.right)
    if isinstance(node, ast.UnaryOp):
        return '-' + lean(node.operand)
    if isinstance(node, ast.Constant):
        seg = ast.get_source_segment(src, node)
        if '.' in seg:
            a, b = seg.split('.')
            return a if b.strip('0') == '' else a + '.' + b
        return seg
    if isinstance(node, ast.Call):
        return '√5'
    raise Exception(ast.dump(node))


out = []
for fn in ast.parse(src).body:
    if not isinstance(fn, ast.FunctionDef):
        continue
    name = fn.name.split('_')[1]
    c = a = None
    b = {}
    for st in fn.body:
        if isinstance(st, ast.Assign):
            tg = st.targets[0]
            if isinstance(tg, ast.Name) and tg.id in ('coeffs', 'alphas'):
                v = [lean(e) for e in st.value.elts]
                if tg.id == 'coeffs':
                    c = v
                else:
                    a = v
            elif isinstance(tg, ast.Subscript):
                b[tuple(e.value for e in tg.slice.elts)] = lean(st.value)
    s = len(c)
    ty = 'ℝ' if name == 'rk6' else 'ℚ'
    non = 'noncomputable ' if name == 'rk6' else ''
    lines = '%d-%d' % (fn.lineno, fn.end_lineno)
    for part, v in (('Coeffs', c), ('Alphas', a)):
        out.append('/-- rk_coeffs.py:%s `%s`: `%s`. -/' % (lines, fn.name, part.lower()))
        out.append('%sdef %s%s : List %s := [\n  %s]\n' % (non, name, part, ty, ',\n  '.join(v)))
    rows = []
    for k in range(s):
        rows.append('  [' + ', '.join(b.get((k, j), '0') for j in range(s - 1)) + ']')
    out.append('/-- rk_coeffs.py:%s `%s`: the rows of `betas` (shape `(%d, %d)`). -/' % (lines, fn.name, s, s - 1))
    out.append('%sdef %sBetas : List (List %s) := [\n%s]\n' % (non, name, ty, ',\n'.join(rows)))
    out.append('/-- rk_coeffs.py:%s `%s`. -/' % (lines, fn.name))
    out.append('%sdef %s : Tableau %s := Tableau.ofRows %sCoeffs %sAlphas %sBetas\n' % (non, name, ty, name, name, name))
open('/verif/lean/Verif/Model/RkCoeffs.lean', 'w').write('''import Verif.Model.Rk
import Mathlib.Data.Rat.Cast.CharZero
import Mathlib.Analysis.Real.Sqrt

/-!
# dg1d/rk_coeffs.py — the Butcher tables

Generated from the source text by tools/gen_rk_coeffs.py. The literals are the exact decimal / rational
numbers written in the source (the floats Python rounds them to are not modelled).
-/

namespace Dg1d

/-- A table from the lists `coeffs`, `alphas` and the rows of `betas`. -/
def Tableau.ofRows {K : Type*} [Zero K] (c a : List K) (b : List (List K)) : Tableau K :=
  { coeffs := c, alphas := a, beta := fun k j => (b.getD k []).getD j 0 }

/-- The same table with entries read in another field. -/
def Tableau.map {K L : Type*} (f : K → L) (t : Tableau K) : Tableau L :=
  { coeffs := t.coeffs.map f, alphas := t.alphas.map f, beta := fun k j => f (t.beta k j) }

''' + '\n'.join(out) + '\nend Dg1d\n')
