#!/usr/bin/env python3
"""Writes lean/Verif/Conformance/Policy.lean from the literals in /repo/tests/test_05_policy.py.

The test file is parsed as text (ast); nothing of /repo is imported or run.
"""
import ast
import os

SRC = '/repo/tests/test_05_policy.py'
OUT = os.path.join(os.path.dirname(__file__), '..', 'lean', 'Verif', 'Conformance', 'Policy.lean')
ERR = 'PolicyError'


def value(node):
    if isinstance(node, (ast.List, ast.Tuple)):
        return [value(x) for x in node.elts]
    if isinstance(node, ast.Name):
        assert node.id == ERR
        return ERR
    return ast.literal_eval(node)


def lstr(x):
    return '"' + x.replace('\\', '\\\\').replace('"', '\\"') + '"'


def val(v):
    if isinstance(v, bool):
        return '.bool ' + ('true' if v else 'false')
    if isinstance(v, int):
        return f'.int {v}'
    if isinstance(v, str):
        return f'.str {lstr(v)}'
    if isinstance(v, list):
        return '.arr [' + ', '.join(val(x) for x in v) + ']'
    raise ValueError(v)


def md(d):
    return '[' + ', '.join(f'({lstr(k)}, {val(v)})' for k, v in d.items()) + ']'


def mp(d):
    return '[' + ', '.join(f'({lstr(k)}, {md(v)})' for k, v in d.items()) + ']'


def rule(p, m=None):
    return f'⟨{md(m or {})}, {mp(p or {})}⟩'


tree = ast.parse(open(SRC).read())
top, loc, params = {}, {}, {}
for n in tree.body:
    if isinstance(n, ast.Assign):
        top[n.targets[0].id] = value(n.value), n.lineno, n
    if isinstance(n, ast.FunctionDef):
        for d in n.decorator_list:
            params[n.name] = d.args[1]
        loc[n.name] = {}
        for b in n.body:
            if isinstance(b, ast.Assign):
                try:
                    loc[n.name][b.targets[0].id] = value(b.value)
                except (ValueError, AssertionError):
                    pass

out = []


def ex(comment, stmt):
    out.append(f'/-- {comment} -/\nexample : {stmt} := by decide +kernel\n')


for name in ('SIMPLE', 'COMPLEX'):
    for node in top[name][2].value.elts:
        row = value(node)
        sup, sub, res = row[-3:]
        where = f'test_05_policy.py {node.lineno}-{node.end_lineno}'
        call = f'combineClaimPolicy E K {md(sup)} {md(sub)}'
        if res == ERR:
            ex(where, f'refused ({call}) = true')
        else:
            ex(where, f'gives ({call}) {md(res)} = true')

g = {k: v[0] for k, v in top.items() if k not in ('SIMPLE', 'COMPLEX')}
ex('test_combine_policies', f'givesRule (combine E K {rule(g["FED"])} {rule(g["ORG"])}) {rule(g["RES"])} = true')
ex('test_apply_policies', f'gives (combine E K {rule(g["FED1"])} {rule(g["ORG1"])} >>= applyPolicy E K {md(g["RP"])}) '
   f'{md(g["RES1"])} = true')
for row in value(params['test_combine_metadata_and_metadata_policy_OK']):
    (p0, p1), m, res = row
    ex('test_combine_metadata_and_metadata_policy_OK',
       f'gives (combine E K {rule(p0["metadata_policy"], p0["metadata"])} {rule(p1["metadata_policy"], p1["metadata"])} '
       f'>>= applyPolicy E K {md(m)}) {md(res)} = true')
for p0, p1 in value(params['test_combine_metadata_and_metadata_policy_NOT_OK']):
    ex('test_combine_metadata_and_metadata_policy_NOT_OK',
       f'refused (combine E K {rule(p0.get("metadata_policy"), p0.get("metadata"))} '
       f'{rule(p1.get("metadata_policy"), p1.get("metadata"))} >>= applyPolicy E K []) = true')
ent = dict(g['ENT'], scopes=["openid", "eduperson"], response_types=["code", "code id_token"])
ex('test_set_equality', f'gives (combine E K {rule(g["POLICY_1"])} {rule(g["POLICY_2"])} >>= applyPolicy E K {md(g["ENT"])}) '
   f'{md(ent)} = true')
s = loc['test_spec_examples']
t = 'openid_relying_party'
comb = (f'combine E K {rule(s["TA_policy"]["metadata_policy"][t])} '
        f'{rule(s["SUB_policy"]["metadata_policy"][t], s["SUB_policy"]["metadata"][t])}')
ex('test_spec_examples, the combined policy',
   f'givesRule ({comb}) {rule(s["result_metadata_policy"], s["SUB_policy"]["metadata"][t])} = true')
ex('test_spec_examples, the resolved metadata',
   f'gives ({comb} >>= applyPolicy E K {md(s["RP_metadata"])}) {md(s["result_metadata"])} = true')
s = loc['test_federation_policy_A_2']
t = 'openid_provider'
a, b, c = (rule(s[n]['metadata_policy'][t]) for n in ('SS_EDUGAIN_SWAMID', 'SS_SWAMID_UMU', 'SS_UMU_OP'))
ex('test_federation_policy_A_2',
   f'gives (combine E K {a} {b} >>= fun r => combine E K r {c} >>= applyPolicy E K {md(s["EC_UMU"]["metadata"][t])}) '
   f'{md(s["VER_METADATA"])} = true')

HEAD = '''import Verif.Policy.OperatorsProps
import Verif.Policy.Combine
/-
The model against the repository's own tests: the literals of /repo/tests/test_05_policy.py, put through the model of
`combine_claim_policy`, `combine` and `apply_policy`, with the outcome the test asserts. Written by tools/conformance.py,
which parses the test file as text. These are checks of the model on samples, not proofs of properties.
As in the tests, lists are compared as sets and a list of one value counts as that value. The tests' own comparison looks
at the first operator only; here every operator and claim is compared.
-/
namespace Fed.Policy.Conformance
open Fed
open Fed.Policy.Ex (E K)

/-- Equal up to the order of lists. -/
def like : Val → Val → Bool
  | .arr xs, .arr ys => xs.all (fun x => decide (x ∈ ys)) && ys.all (fun y => decide (y ∈ xs))
  | .arr xs, v => decide (xs = [v])
  | v, .arr ys => decide (ys = [v])
  | v, w => decide (v = w)

def likeDict (r : Dict α → Dict α → Bool) (a b : Dict α) : Bool :=
  a.keys.all (fun k => decide (k ∈ b.keys)) && b.keys.all (fun k => decide (k ∈ a.keys)) && r a b

def likeMetadata : Metadata → Metadata → Bool :=
  likeDict fun a b => a.keys.all fun k =>
    match a.get? k, b.get? k with
    | some v, some w => like v w
    | _, _ => false

def likePolicy : MetadataPolicy → MetadataPolicy → Bool :=
  likeDict fun a b => a.keys.all fun k =>
    match a.get? k, b.get? k with
    | some v, some w => likeMetadata v w
    | _, _ => false

def gives (r : Except PyErr (Dict Val)) (want : Dict Val) : Bool :=
  match r with
  | .ok got => likeMetadata got want
  | .error _ => false

def givesRule (r : Except PyErr Rule) (want : Rule) : Bool :=
  match r with
  | .ok got => likeMetadata got.metadata want.metadata && likePolicy got.policy want.policy
  | .error _ => false

def refused (r : Except PyErr α) : Bool :=
  match r with
  | .error .policyError => true
  | _ => false

'''
open(OUT, 'w').write(HEAD + '\n'.join(out) + '\nend Fed.Policy.Conformance\n')
print(len(out), 'examples')
