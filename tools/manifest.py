import re,json,glob
thms={}
for f in sorted(glob.glob('/verif/lean/Verif/**/*.lean',recursive=True)):
    src=open(f).read()
    ns=[]
    for line in src.split('\n'):
        m=re.match(r'namespace\s+(\S+)',line)
        if m: ns.append(m.group(1))
        m=re.match(r'end\s+(\S+)',line)
        if m and ns and ns[-1]==m.group(1): ns.pop()
        m=re.match(r'theorem\s+(c(\d\d)_\S+)',line)
        if m: thms.setdefault('C'+m.group(2),[]).append('.'.join(ns+[m.group(1)]))
exec(open('/verif/tools/status.py').read())
claims=[]
ids=[json.loads(l)['id'] for l in open('/verif/properties.jsonl')]
for i in ids:
    if i in STATUS and i in thms:
        st,note=STATUS[i]
        claims.append({"property":i,"status":st,"theorems":thms[i],"note":note})
    elif i in STATUS:
        print("no theorems for",i)
    elif i in thms: print("no status for",i)
    else:
        if '-v' in __import__('sys').argv: print("missing",i)
json.dump({"claims":claims},open('/verif/MANIFEST.json','w'),indent=1,ensure_ascii=False)
print(len(claims),"claims",sum(len(c['theorems']) for c in claims),"theorems")
