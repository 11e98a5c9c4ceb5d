import json,sys
def edit(ch):
    L=[json.loads(l) for l in open('/verif/properties.jsonl')]
    for d in L:
        if d['id'] in ch: d.update(ch[d['id']])
    ids={d['id'] for d in L}
    for k,v in ch.items():
        if k not in ids: L.append({**dict(id=k),**v})
    open('/verif/properties.jsonl','w').write("".join(json.dumps(d,ensure_ascii=False)+"\n" for d in L))
