import json,sys
p='/verif/tools/status.json'
d=json.load(open(p))
new=json.load(sys.stdin)
d.update(new)
d=dict(sorted(d.items()))
json.dump(d,open(p,'w'),indent=0,ensure_ascii=False)
