import json,re,subprocess,sys
# entries: id -> (status, [theorems], note)
exec(open('/tmp/w/claims.py').read())
json.dump({"claims":[{"property":k,"status":s,"theorems":t,"note":n} for k,(s,t,n) in sorted(CL.items())]},open('/verif/MANIFEST.json','w'),indent=1,ensure_ascii=False)
ths=[t for k,(s,t,n) in sorted(CL.items()) for t in t]
open('/tmp/w/ax.lean','w').write("import Verif\n"+"\n".join(f"#print axioms {t}" for t in ths)+"\n")
out=subprocess.run(['lake','env','lean','/tmp/w/ax.lean'],cwd='/verif/lean',capture_output=True,text=True)
txt=out.stdout+out.stderr
if 'error:' in txt or out.returncode: print(txt); sys.exit(1)
txt=re.sub(r'\n\s+',' ',txt)
rows=[]
bad=False
for l in txt.splitlines():
    m=re.match(r"'(.*)' depends on axioms: \[(.*)\]",l)
    if m:
        ax=m.group(2)
        if set(a.strip() for a in ax.split(','))-{'propext','Classical.choice','Quot.sound'}: bad=True; print("BAD",l)
        rows.append((m.group(1),ax)); continue
    m=re.match(r"'(.*)' does not depend on any axioms",l)
    if m: rows.append((m.group(1),'none'))
open('/verif/AXIOMS.md','w').write("# Axioms per theorem\n\nOutput of `#print axioms` for every theorem named in MANIFEST.json.\n\n| theorem | axioms |\n|---|---|\n"+"".join(f"| `{a}` | {b} |\n" for a,b in rows))
print(len(ths),len(rows),'bad' if bad else 'ok')
